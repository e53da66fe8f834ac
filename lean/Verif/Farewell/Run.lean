import Verif.Farewell.Steps
/-! # Executions keep the invariants (C79) -/

namespace Verif.Farewell
open Verif

/-- a message about a subscription is sent by its actor -/
theorem wish_inv {src : Nat → Nat} {s : State} (h : Inv src s) (x : Nat) (m : Msg) (b : Bool) (e : Ev) (hb : s.sub x = !b)
    (hm : (m = .ext x ∧ b = true ∧ e = .asked x) ∨ (m = .commit x ∧ b = false ∧ e = .left x)) :
    Inv src { s with sub := upd s.sub x b, chan := upd s.chan (src x) (s.chan (src x) ++ [m]), log := e :: s.log } := by
  have hme : about x m = some b ∧ (∀ y, y ≠ x → about y m = none) ∧ (∀ h, m ≠ .off h) := by
    rcases hm with ⟨rfl, rfl, _⟩ | ⟨rfl, rfl, _⟩
    · exact ⟨by simp [about], fun y hy => by simp [about, Ne.symm hy], by simp⟩
    · exact ⟨by simp [about], fun y hy => by simp [about, Ne.symm hy], by simp⟩
  have hee : e ≠ .deactivated ∧ e ≠ .emptied := by
    rcases hm with ⟨_, _, rfl⟩ | ⟨_, _, rfl⟩ <;> simp
  refine ⟨h.ph.congr rfl rfl rfl rfl rfl, h.tab, h.nd, ?_, ?_, ?_, ?_, ?_, ?_, h.ds⟩
  · intro he y
    have := h.al he y
    by_cases ey : y = x
    · subst ey
      simp only [upd_same]
      rw [hb] at this
      have := alt_snoc this
      rw [← List.append_assoc, List.filterMap_append]
      simpa [hme.1] using this
    · simp only [upd_ne _ _ ey]
      by_cases es : src y = src x
      · rw [es, upd_same, ← es, ← List.append_assoc, List.filterMap_append]
        simpa [hme.2.1 y ey] using this
      · rw [upd_ne _ _ es]; exact this
  · intro l
    by_cases el : l = src x
    · subst el; simp only [upd_same]; exact plain_snoc (h.cp _) hme.2.2
    · simp only [upd_ne _ _ el]; exact h.cp l
  · intro l y hy
    by_cases el : l = src x
    · subst el
      simp only [upd_same, List.mem_append, List.mem_singleton] at hy
      rcases hy with (q | q) | (q | q)
      · exact h.cs _ y (Or.inl q)
      · rcases hm with ⟨rfl, _⟩ | ⟨rfl, _⟩
        · cases q; rfl
        · cases q
      · exact h.cs _ y (Or.inr q)
      · rcases hm with ⟨rfl, _⟩ | ⟨rfl, _⟩
        · cases q
        · cases q; rfl
    · simp only [upd_ne _ _ el] at hy; exact h.cs l y hy
  · intro q; exact h.dk (by simpa [hee.1.symm] using q)
  · intro q; exact h.em (by simpa [hee.2.symm] using q)
  · intro q
    have := h.sh q
    simp only [List.mem_cons]
    grind

/-- another message is sent to the locality -/
theorem other_inv {src : Nat → Nat} {s : State} (h : Inv src s) (l : Nat) (m : Msg) (h1 : ∀ h, m ≠ .off h) (h2 : ∀ x, m ≠ .ext x) (h3 : ∀ x, m ≠ .commit x) :
    Inv src { s with chan := upd s.chan l (s.chan l ++ [m]) } := by
  have ha : ∀ x, about x m = none := by
    intro x
    cases m with
    | ext y => exact absurd rfl (h2 y)
    | commit y => exact absurd rfl (h3 y)
    | _ => rfl
  refine ⟨h.ph.congr rfl rfl rfl rfl rfl, h.tab, h.nd, ?_, ?_, ?_, h.dk, h.em, h.sh, h.ds⟩
  · intro he y
    have := h.al he y
    by_cases es : src y = l
    · subst es
      simp only [upd_same]
      rw [← List.append_assoc, List.filterMap_append]
      simpa [ha y] using this
    · simp only [upd_ne _ _ es]; exact this
  · intro j
    by_cases el : j = l
    · subst el; simp only [upd_same]; exact plain_snoc (h.cp _) h1
    · simp only [upd_ne _ _ el]; exact h.cp j
  · intro j y hy
    by_cases el : j = l
    · subst el
      simp only [upd_same, List.mem_append, List.mem_singleton] at hy
      rcases hy with (q | q) | (q | q)
      · exact h.cs _ y (Or.inl q)
      · exact absurd q.symm (h2 y)
      · exact h.cs _ y (Or.inr q)
      · exact absurd q.symm (h3 y)
    · simp only [upd_ne _ _ el] at hy; exact h.cs j y hy

/-- no step fails an assertion or uses what is not there -/
theorem step_ok {src : Nat → Nat} {s : State} (h : Inv src s) (hc : Cnt src s) (op : Op) :
    step src s op = .error .illegal ∨ ∃ s', step src s op = .ok s' ∧ Inv src s' ∧ Cnt src s' ∧ (s.own = [] → s'.own = [] ∧ s'.table = s.table) := by
  cases op with
  | sub x =>
    by_cases hx : s.sub x = true
    · exact Or.inl (by simp [step, hx])
    · refine Or.inr ⟨_, by simp [step, hx], wish_inv h x (.ext x) true (.asked x) (by simpa using hx) (Or.inl ⟨rfl, rfl, rfl⟩), ⟨?_, ?_, ?_, ?_, ?_, ?_⟩, fun e => ⟨e, rfl⟩⟩
      · intro y
        have := hc.ca y
        simp only [wanting] at this ⊢
        by_cases e : y = x
        · subst e; simp [upd_same, List.count_append]; omega
        · by_cases es : src y = src x
          · simp [es, upd_same, List.count_append, List.count_cons, Ne.symm e]; rw [es] at this; exact this
          · simp [upd_ne _ _ es, List.count_cons, Ne.symm e]; exact this
      · intro y
        have := hc.cl y
        simp only [leaving] at this ⊢
        by_cases es : src y = src x
        · simp [es, upd_same, List.count_append, List.count_cons]; rw [es] at this; exact this
        · simp [upd_ne _ _ es, List.count_cons]; exact this
      · intro y; have := hc.ct y; simpa [List.count_cons] using this
      · intro y
        have := hc.cu y
        by_cases e : y = x
        · subst e; simp [upd_same]; simp [hx] at this; exact this
        · simp [upd_ne _ _ e, List.count_cons, Ne.symm e]; exact this
      · intro k e; simpa using hc.lo k (by simpa using e)
      · intro y e; exact hc.un y (by simpa using e)
  | leave x =>
    by_cases hx : s.sub x = true
    · refine Or.inr ⟨_, by simp [step, hx], wish_inv h x (.commit x) false (.left x) (by simpa using hx) (Or.inr ⟨rfl, rfl, rfl⟩), ⟨?_, ?_, ?_, ?_, ?_, ?_⟩, fun e => ⟨e, rfl⟩⟩
      · intro y
        have := hc.ca y
        simp only [wanting] at this ⊢
        by_cases es : src y = src x
        · simp [es, upd_same, List.count_append, List.count_cons]; rw [es] at this; exact this
        · simp [upd_ne _ _ es, List.count_cons]; exact this
      · intro y
        have := hc.cl y
        simp only [leaving] at this ⊢
        by_cases e : y = x
        · subst e; simp [upd_same, List.count_append]; omega
        · by_cases es : src y = src x
          · simp [es, upd_same, List.count_append, List.count_cons, Ne.symm e]; rw [es] at this; exact this
          · simp [upd_ne _ _ es, List.count_cons, Ne.symm e]; exact this
      · intro y; have := hc.ct y; simpa [List.count_cons] using this
      · intro y
        have := hc.cu y
        by_cases e : y = x
        · subst e; simp [upd_same, List.count_cons]; simp [hx] at this; exact this
        · simp [upd_ne _ _ e, List.count_cons, Ne.symm e]; exact this
      · intro k e; simpa using hc.lo k (by simpa using e)
      · intro y e; exact hc.un y (by simpa using e)
    · exact Or.inl (by simp [step, hx])
  | sendCall l k =>
    refine Or.inr ⟨_, rfl, other_inv h l (.call k) (by simp) (by simp) (by simp), ⟨?_, ?_, hc.ct, hc.cu, hc.lo, hc.un⟩, fun e => ⟨e, rfl⟩⟩
    · intro y
      have := hc.ca y
      simp only [wanting] at this ⊢
      by_cases es : src y = l
      · subst es; simp [upd_same, List.count_append, List.count_cons]; exact this
      · simp [upd_ne _ _ es]; exact this
    · intro y
      have := hc.cl y
      simp only [leaving] at this ⊢
      by_cases es : src y = l
      · subst es; simp [upd_same, List.count_append, List.count_cons]; exact this
      · simp [upd_ne _ _ es]; exact this
  | sendUser l u =>
    refine Or.inr ⟨_, rfl, other_inv h l (.user u) (by simp) (by simp) (by simp), ⟨?_, ?_, hc.ct, hc.cu, hc.lo, hc.un⟩, fun e => ⟨e, rfl⟩⟩
    · intro y
      have := hc.ca y
      simp only [wanting] at this ⊢
      by_cases es : src y = l
      · subst es; simp [upd_same, List.count_append, List.count_cons]; exact this
      · simp [upd_ne _ _ es]; exact this
    · intro y
      have := hc.cl y
      simp only [leaving] at this ⊢
      by_cases es : src y = l
      · subst es; simp [upd_same, List.count_append, List.count_cons]; exact this
      · simp [upd_ne _ _ es]; exact this
  | arrive l =>
    match hl : s.chan l with
    | [] => exact Or.inr ⟨s, by simp [step, hl], h, hc, fun e => ⟨e, rfl⟩⟩
    | m :: rest =>
      have hm : ∀ a, m ≠ .off a := fun a e => h.cp l a (by rw [hl, e]; simp)
      have hother : ∀ y, src y ≠ l → m ≠ .ext y ∧ m ≠ .commit y := by
        intro y hy
        constructor
        · rintro rfl; exact hy (h.cs l y (Or.inl (by rw [hl]; simp))).symm
        · rintro rfl; exact hy (h.cs l y (Or.inr (by rw [hl]; simp))).symm
      refine Or.inr ⟨{ s with chan := upd s.chan l rest, queue := s.queue ++ [m] }, by simp [step, hl],
        ⟨h.ph.snoc hm rfl rfl rfl rfl rfl, h.tab, h.nd, ?_, ?_, ?_, h.dk, h.em, h.sh, h.ds⟩, ⟨?_, ?_, hc.ct, hc.cu, hc.lo, hc.un⟩, fun e => ⟨e, rfl⟩⟩
      · intro he y
        have := h.al he y
        by_cases es : src y = l
        · subst es; rw [hl] at this; simp only [upd_same, List.append_assoc, List.singleton_append]; exact this
        · simp only [upd_ne _ _ es]
          have ha : about y m = none := by
            obtain ⟨q1, q2⟩ := hother y es
            cases m with
            | ext z => simp only [about]; rw [if_neg]; rintro rfl; exact q1 rfl
            | commit z => simp only [about]; rw [if_neg]; rintro rfl; exact q2 rfl
            | _ => rfl
          simpa [ha] using this
      · intro j
        by_cases el : j = l
        · subst el; simp only [upd_same]; exact plain_tail (hl ▸ h.cp j)
        · simp only [upd_ne _ _ el]; exact h.cp j
      · intro j y hy
        by_cases el : j = l
        · subst el
          simp only [upd_same] at hy
          exact h.cs j y (by rw [hl]; rcases hy with q | q <;> simp [q])
        · simp only [upd_ne _ _ el] at hy; exact h.cs j y hy
      · intro y
        have := hc.ca y
        simp only [wanting] at this ⊢
        by_cases es : src y = l
        · subst es; rw [hl] at this; simp only [upd_same, List.count_append, List.count_cons, List.count_nil] at this ⊢; omega
        · obtain ⟨q1, _⟩ := hother y es
          simp only [upd_ne _ _ es, List.count_append, List.count_cons, List.count_nil, beq_iff_eq, if_neg q1]; omega
      · intro y
        have := hc.cl y
        simp only [leaving] at this ⊢
        by_cases es : src y = l
        · subst es; rw [hl] at this; simp only [upd_same, List.count_append, List.count_cons, List.count_nil] at this ⊢; omega
        · obtain ⟨_, q1⟩ := hother y es
          simp only [upd_ne _ _ es, List.count_append, List.count_cons, List.count_nil, beq_iff_eq, if_neg q1]; omega
  | take =>
    obtain ⟨s', e, i, c, _, _, _, o⟩ := take_ok h hc
    exact Or.inr ⟨s', e, i, c, o⟩
  | create k =>
    by_cases hx : s.st = .operational ∧ k ∉ s.kids
    · refine Or.inr ⟨{ s with kids := k :: s.kids }, by simp only [step]; rw [if_pos hx], ⟨h.ph.congr rfl rfl rfl rfl rfl, h.tab, h.nd, h.al, h.cp, h.cs, ?_, h.em, h.sh, h.ds⟩, ⟨hc.ca, hc.cl, hc.ct, hc.cu, hc.lo, hc.un⟩, fun e => ⟨e, rfl⟩⟩
      intro e
      exact absurd hx.1 (h.dk e).2.1
    · exact Or.inl (by simp only [step]; rw [if_neg hx])
  | shutdown =>
    by_cases hx : s.st = .operational
    · refine Or.inr ⟨{ s with st := .shuttingDown }, by simp only [step]; rw [if_pos hx], ⟨h.ph.congr rfl rfl rfl rfl rfl, h.tab, h.nd, h.al, h.cp, h.cs, ?_, ?_, ?_, ?_⟩, ⟨hc.ca, hc.cl, hc.ct, hc.cu, hc.lo, hc.un⟩, fun e => ⟨e, rfl⟩⟩
      · intro e; have := h.dk e; exact ⟨this.1, by simp, this.2.2⟩
      · intro e; exact ⟨by simp, (h.em e).2⟩
      · intro e; exact ⟨by simp, (h.sh e).2⟩
      · intro e; simp at e
    · exact Or.inl (by simp [step, hx])
  | kidGone k =>
    by_cases hx : k ∈ s.kids
    · refine Or.inr ⟨{ s with kids := s.kids.erase k }, by simp only [step]; rw [if_pos hx], ⟨h.ph.congr rfl rfl rfl rfl rfl, h.tab, h.nd, h.al, h.cp, h.cs, ?_, h.em, h.sh, h.ds⟩, ⟨hc.ca, hc.cl, hc.ct, hc.cu, hc.lo, hc.un⟩, fun e => ⟨e, rfl⟩⟩
      intro e
      have := h.dk e
      rw [this.1] at hx
      cases hx
    · exact Or.inl (by simp [step, hx])
  | deactivate =>
    by_cases hx : s.st = .shuttingDown ∧ s.kids = [] ∧ .deactivated ∉ s.log
    · have hC : ∀ (s' : State), s'.log = .deactivated :: s.log → (∃ l, s'.queue = s.queue ++ l ∧ ∀ m, m ∈ l → ∃ h, m = Msg.off h) → s'.chan = s.chan →
          s'.table = s.table → s'.sub = s.sub → s'.own = s.own → Cnt src s' := by
        intro s' q1 ⟨l, q2, q2'⟩ q3 q4 q5 q6
        refine ⟨?_, ?_, ?_, ?_, ?_, ?_⟩
        · intro y
          have := hc.ca y
          have hz := (count_offs q2' y).1
          simp only [wanting] at this
          simp only [wanting, q1, q2, q3, List.count_append, hz]
          simpa [List.count_cons] using this
        · intro y
          have := hc.cl y
          have hz := (count_offs q2' y).2
          simp only [leaving] at this
          simp only [leaving, q1, q2, q3, List.count_append, hz]
          simpa [List.count_cons] using this
        · intro y; rw [q1, q4]; have := hc.ct y; simpa [List.count_cons] using this
        · intro y; rw [q1, q5]; have := hc.cu y; simpa [List.count_cons] using this
        · intro k e; rw [q1] at e ⊢; simpa using hc.lo k (by simpa using e)
        · intro y e; rw [q1] at e; rw [q6]; exact hc.un y (by simpa using e)
      by_cases ha : s.active = true
      · have hp : Phase { s with log := .deactivated :: s.log, deact := true } := by
          cases h.ph with
          | on a b c d => exact .on a b c d
          | going a b c pre post d e f => exact .going a b c pre post d e f
          | two a b c post d e => exact .two a b c post d e
          | one a b c post d e => exact .one a b c post d e
          | off a b c d e => rw [ha] at c; cases c
        obtain ⟨hB, hB1, hB2, l, U, d, hB3, hB4, hB5⟩ := baseDeactivate_spec hp
        refine Or.inr ⟨baseDeactivate { s with log := .deactivated :: s.log, deact := true }, ?_, ?_, ?_, ?_⟩
        · simp only [step]
          rw [if_pos hx]
          simp [deactivate, ha]
        · rw [hB3] at hB hB1 ⊢
          refine ⟨hB, h.tab, h.nd, ?_, h.cp, h.cs, ?_, ?_, ?_, h.ds⟩
          · intro e y
            have := h.al e y
            have hz := about_offs hB4 y
            simp only [List.filterMap_append, hz, List.append_nil] at this ⊢
            exact this
          · intro _
            refine ⟨hx.2.1, ?_, hB1⟩
            show s.st ≠ _
            rw [hx.1]; simp
          · intro _
            refine ⟨?_, hB1⟩
            show s.st ≠ _
            rw [hx.1]; simp
          · intro _
            refine ⟨?_, Or.inr (by simp)⟩
            show s.st ≠ _
            rw [hx.1]; simp
        · rw [hB3]
          exact hC _ rfl ⟨l, rfl, hB4⟩ rfl rfl rfl rfl
        · rw [hB3]; exact fun e => ⟨e, rfl⟩
      · refine Or.inr ⟨{ s with log := .deactivated :: s.log }, ?_, ⟨h.ph.congr rfl rfl rfl rfl rfl, h.tab, h.nd, h.al, h.cp, h.cs, ?_, ?_, ?_, h.ds⟩, ?_, fun e => ⟨e, rfl⟩⟩
        · simp only [step]
          rw [if_pos hx]
          simp [deactivate, ha]
        · intro _
          refine ⟨hx.2.1, ?_, ?_⟩
          · show s.st ≠ _
            rw [hx.1]; simp
          · cases h.ph with
            | on _ _ c _ => exact absurd c ha
            | going _ _ c _ _ _ _ _ => exact absurd c ha
            | two _ _ c _ _ _ => exact absurd c ha
            | one _ _ c _ _ _ => exact absurd c ha
            | off _ b _ _ _ => exact ne_of_all b
        · intro e; exact h.em (by simpa using e)
        · intro e
          have := h.sh e
          simp only [List.mem_cons]
          grind
        · exact hC _ rfl ⟨[], by simp, by simp⟩ rfl rfl rfl rfl
    · exact Or.inl (by simp only [step]; rw [if_neg hx])
  | finish =>
    by_cases hx : s.st = .shuttingDown ∧ .deactivated ∈ s.log ∧ s.active = false
    · have hp := h.ph
      have hd : s.deact = false ∧ s.own = [] := by
        cases hp with
        | on _ _ c _ => rw [hx.2.2] at c; cases c
        | going _ _ c _ _ _ _ _ => rw [hx.2.2] at c; cases c
        | two _ _ c _ _ _ => rw [hx.2.2] at c; cases c
        | one _ _ c _ _ _ => rw [hx.2.2] at c; cases c
        | off a _ _ d _ => exact ⟨d, a⟩
      refine Or.inr ⟨{ s with st := .shutDown }, ?_, ⟨h.ph.congr rfl rfl rfl rfl rfl, h.tab, h.nd, h.al, h.cp, h.cs, ?_, ?_, ?_, fun _ => hd.2⟩, ⟨hc.ca, hc.cl, hc.ct, hc.cu, hc.lo, hc.un⟩, fun e => ⟨e, rfl⟩⟩
      · simp only [step]
        rw [if_pos hx]
        simp [hd.1]
      · intro e; have := h.dk e; exact ⟨this.1, by simp, this.2.2⟩
      · intro e; exact ⟨by simp, (h.em e).2⟩
      · intro e; exact ⟨by simp, (h.sh e).2⟩
    · exact Or.inl (by simp only [step]; rw [if_neg hx])

theorem run_ok {src : Nat → Nat} (ops : List Op) : ∀ {s : State}, Inv src s → Cnt src s →
    run src s ops = .error .illegal ∨ ∃ s', run src s ops = .ok s' ∧ Inv src s' ∧ Cnt src s' ∧ (s.own = [] → s'.own = [] ∧ s'.table = s.table) := by
  induction ops with
  | nil => intro s h hc; exact Or.inr ⟨s, rfl, h, hc, fun e => ⟨e, rfl⟩⟩
  | cons op ops ih =>
    intro s h hc
    rcases step_ok h hc op with e | ⟨s1, e, h1, c1, o1⟩
    · exact Or.inl (by simp [run, e])
    · rcases ih h1 c1 with e2 | ⟨s2, e2, h2, c2, o2⟩
      · exact Or.inl (by simp [run, e, e2])
      · refine Or.inr ⟨s2, by simp [run, e, e2], h2, c2, fun z => ?_⟩
        obtain ⟨z1, z2⟩ := o1 z
        obtain ⟨z3, z4⟩ := o2 z1
        exact ⟨z3, by rw [z4, z2]⟩

theorem reach {src : Nat → Nat} {ops : List Op} {s : State} (h : run src State.init ops = .ok s) : Inv src s ∧ Cnt src s := by
  rcases run_ok ops (init_inv src) (init_cnt src) with e | ⟨s', e, i, c, _⟩
  · rw [h] at e; cases e
  · rw [h] at e; cases e; exact ⟨i, c⟩

end Verif.Farewell
