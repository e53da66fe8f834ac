import Verif.Farewell.Lemmas
/-! # Every step keeps the invariants (C79) -/

namespace Verif.Farewell
open Verif

theorem Phase.ext_full {s : State} (h : Phase s) (he : H.ext ∈ s.own) : s.own = full := by
  cases h with
  | on a _ _ _ => exact a
  | going a _ _ _ _ _ _ _ => exact a
  | two a _ _ _ _ _ => rw [a] at he; simp at he
  | one a _ _ _ _ _ => rw [a] at he; simp at he
  | off a _ _ _ _ => rw [a] at he; simp at he

/-- `subscription_container_t::find` finds the subscription that is to be removed -/
theorem commit_found {src : Nat → Nat} {s : State} (h : Inv src s) {x : Nat} {rest : List Msg} (hq : s.queue = .commit x :: rest)
    (he : H.ext ∈ s.own) : x ∈ s.fp := by
  have := h.al he x
  rw [hq] at this
  simp only [List.cons_append, List.filterMap_cons, about, if_true, alt] at this
  simpa using this.1

theorem ext_new {src : Nat → Nat} {s : State} (h : Inv src s) {x : Nat} {rest : List Msg} (hq : s.queue = .ext x :: rest)
    (he : H.ext ∈ s.own) : x ∉ s.fp := by
  have := h.al he x
  rw [hq] at this
  simp only [List.cons_append, List.filterMap_cons, about, if_true, alt] at this
  simpa using this.1

theorem take_ok {src : Nat → Nat} {s : State} (h : Inv src s) (hc : Cnt src s) :
    ∃ s', take s = .ok s' ∧ Inv src s' ∧ Cnt src s' ∧ s'.kids = s.kids ∧ s'.st = s.st ∧ (s.uns ≠ [] → s'.uns = s.uns ∧ s'.queue = s.queue.tail) ∧
      (s.own = [] → s'.own = [] ∧ s'.table = s.table) := by
  match hq : s.queue with
  | [] => exact ⟨s, by simp [take, hq], h, hc, rfl, rfl, fun _ => ⟨rfl, by simp [hq]⟩, fun e => ⟨e, rfl⟩⟩
  | .ext x :: rest =>
    obtain ⟨hp, hw⟩ := h.ph.take (s' := { s with queue := rest, fp := s.fp ++ [x], table := s.table ++ [x], log := .confirmed x :: s.log })
      hq (by simp) rfl rfl rfl rfl rfl
    rcases hw with ⟨ho, ha⟩ | ⟨ho, ha, hu⟩
    · have he : H.ext ∈ s.own := by rw [ho]; simp [full]
      have hx := ext_new h hq he
      refine ⟨_, by simp [take, hq, onExt, he, ha], ⟨hp, by simp [h.tab], ?_, ?_, h.cp, h.cs, ?_, ?_, ?_, h.ds⟩, ⟨?_, ?_, ?_, ?_, ?_, ?_⟩, rfl, rfl,
        fun _ => ⟨rfl, rfl⟩, fun e => absurd e (List.ne_nil_of_mem he)⟩
      · have := h.nd; grind
      · intro _ y
        have := h.al he y
        rw [hq] at this
        by_cases e : x = y
        · subst e
          simp only [List.cons_append, List.filterMap_cons, about, if_true, alt] at this
          simpa using this.2
        · simp only [List.cons_append, List.filterMap_cons, about, if_neg e] at this
          have e2 : decide (y ∈ s.fp ++ [x]) = decide (y ∈ s.fp) := by simp [Ne.symm e]
          simp only [e2]
          exact this
      · intro e; exact h.dk (by simpa using e)
      · intro e; exact h.em (by simpa using e)
      · intro e; simpa using h.sh e
      · intro y
        have := hc.ca y
        simp only [wanting, hq] at this
        simp only [wanting, List.count_cons] at this ⊢
        by_cases e : x = y <;> simp_all <;> omega
      · intro y
        have := hc.cl y
        simp only [leaving, hq] at this
        simpa [leaving, List.count_cons] using this
      · intro y
        have := hc.ct y
        by_cases e : x = y <;> simp_all [List.count_cons, List.count_append] <;> omega
      · intro y; have := hc.cu y; simpa [List.count_cons] using this
      · intro k e; simpa using hc.lo k (by simpa using e)
      · intro y e; exact hc.un y (by simpa using e)
    · refine ⟨{ s with queue := rest, log := .unheard x :: s.log }, by simp [take, hq, onExt, ho], ⟨hp.congr rfl rfl rfl rfl rfl, h.tab, h.nd, ?_, h.cp, h.cs, ?_, ?_, ?_, h.ds⟩, ⟨?_, ?_, ?_, ?_, ?_, ?_⟩, rfl, rfl,
        fun _ => ⟨rfl, rfl⟩, fun e => ⟨e, rfl⟩⟩
      · intro e; rw [ho] at e; simp at e
      · intro e; exact h.dk (by simpa using e)
      · intro e; exact h.em (by simpa using e)
      · intro e; simpa using h.sh e
      · intro y
        have := hc.ca y
        simp only [wanting, hq] at this
        simp only [wanting, List.count_cons] at this ⊢
        by_cases e : x = y <;> simp_all <;> omega
      · intro y
        have := hc.cl y
        simp only [leaving, hq] at this
        simpa [leaving, List.count_cons] using this
      · intro y; have := hc.ct y; simpa [List.count_cons] using this
      · intro y; have := hc.cu y; simpa [List.count_cons] using this
      · intro k e; simpa using hc.lo k (by simpa using e)
      · intro y e; rw [ho]; simp
  | .commit x :: rest =>
    obtain ⟨hp, hw⟩ := h.ph.take (s' := { s with queue := rest, fp := s.fp.erase x, table := s.table.erase x, log := .removed x :: s.log })
      hq (by simp) rfl rfl rfl rfl rfl
    rcases hw with ⟨ho, ha⟩ | ⟨ho, ha, hu⟩
    · have he : H.ext ∈ s.own := by rw [ho]; simp [full]
      have hun : H.unsub ∈ s.own := by rw [ho]; simp [full]
      have hx := commit_found h hq he
      have hn := h.nd
      -- the books after the removal
      have h1 : Inv src { s with queue := rest, fp := s.fp.erase x, table := s.table.erase x, log := .removed x :: s.log } := by
        refine ⟨hp, by simp [h.tab], hn.erase _, ?_, h.cp, h.cs, ?_, ?_, ?_, h.ds⟩
        · intro _ y
          have := h.al he y
          rw [hq] at this
          by_cases e : x = y
          · subst e
            simp only [List.cons_append, List.filterMap_cons, about, if_true, alt] at this
            have e2 : decide (x ∈ s.fp.erase x) = false := by simp [hn.mem_erase_iff]
            simp only [e2]
            exact this.2
          · simp only [List.cons_append, List.filterMap_cons, about, if_neg e] at this
            have e2 : decide (y ∈ s.fp.erase x) = decide (y ∈ s.fp) := by simp [hn.mem_erase_iff, Ne.symm e]
            simp only [e2]
            exact this
        · intro e; exact h.dk (by simpa using e)
        · intro e; exact h.em (by simpa using e)
        · intro e; simpa using h.sh e
      have h2 : Cnt src { s with queue := rest, fp := s.fp.erase x, table := s.table.erase x, log := .removed x :: s.log } := by
        refine ⟨?_, ?_, ?_, ?_, ?_, ?_⟩
        · intro y
          have := hc.ca y
          simp only [wanting, hq] at this
          simpa [wanting, List.count_cons] using this
        · intro y
          have := hc.cl y
          simp only [leaving, hq] at this
          simp only [leaving, List.count_cons] at this ⊢
          by_cases e : x = y <;> simp_all <;> omega
        · intro y
          have := hc.ct y
          have h3 : x ∈ s.table := by rw [h.tab]; exact hx
          by_cases e : x = y
          · subst e
            have h4 : 0 < s.table.count x := List.count_pos_iff.mpr h3
            simp only [List.count_cons, List.count_erase_self]
            simp
            omega
          · simpa [List.count_cons, List.count_erase_of_ne (Ne.symm e), e] using this
        · intro y; have := hc.cu y; simpa [List.count_cons] using this
        · intro k e; simpa using hc.lo k (by simpa using e)
        · intro y e; exact hc.un y (by simpa using e)
      by_cases hE : s.fp.erase x = [] ∧ s.st = .shuttingDown
      · obtain ⟨hB, hB1, hB2, l, U, d, hB3, hB4, hB5⟩ := baseDeactivate_spec (s := { s with queue := rest, fp := s.fp.erase x, table := s.table.erase x, log := .emptied :: .removed x :: s.log }) (hp.congr rfl rfl rfl rfl rfl)
        refine ⟨baseDeactivate { s with queue := rest, fp := s.fp.erase x, table := s.table.erase x, log := .emptied :: .removed x :: s.log }, ?_, ?_, ?_, ?_, ?_, ?_, ?_⟩
        · simp [take, hq, onCommit, hun, ha, hx, h.tab, hE]
        · rw [hB3] at hB hB1 ⊢
          refine ⟨hB, h1.tab, h1.nd, ?_, h.cp, h.cs, ?_, ?_, ?_, h.ds⟩
          · intro e y
            have := h1.al e y
            have hz := about_offs hB4 y
            simp only [List.filterMap_append, hz, List.append_nil] at this ⊢
            exact this
          · intro e
            have := h1.dk (by simpa using e)
            exact ⟨this.1, this.2.1, hB1⟩
          · intro _; refine ⟨?_, hB1⟩
            show s.st ≠ _
            rw [hE.2]; simp
          · intro _; refine ⟨?_, Or.inl (by simp)⟩
            show s.st ≠ _
            rw [hE.2]; simp
        · rw [hB3]
          refine ⟨?_, ?_, ?_, ?_, ?_, ?_⟩
          · intro y
            have := h2.ca y
            have hz := (count_offs hB4 y).1
            simp only [wanting, List.count_append, hz] at this ⊢
            simpa [List.count_cons] using this
          · intro y
            have := h2.cl y
            have hz := (count_offs hB4 y).2
            simp only [leaving, List.count_append, hz] at this ⊢
            simpa [List.count_cons] using this
          · intro y; have := h2.ct y; simpa [List.count_cons] using this
          · intro y; have := h2.cu y; simpa [List.count_cons] using this
          · intro k e; simp
          · intro y e; exact h2.un y (by simpa using e)
        · rw [hB3]
        · rw [hB3]
        · intro e
          have hl := hB5 e
          subst hl
          rw [hB3]
          refine ⟨?_, by simp⟩
          -- nothing is marked again
          cases h.ph with
          | on _ q _ _ => exact absurd q e
          | going a b c pre post d e f =>
            have : baseDeactivate { s with queue := rest, fp := s.fp.erase x, table := s.table.erase x, log := .emptied :: .removed x :: s.log } = { s with queue := rest, fp := s.fp.erase x, table := s.table.erase x, log := .emptied :: .removed x :: s.log } := by
              simp [baseDeactivate, c, a, full, markAll, mark, b]
            rw [this] at hB3
            have := congrArg State.uns hB3
            exact this.symm
          | two a _ _ _ _ _ => rw [a] at he; simp at he
          | one a _ _ _ _ _ => rw [a] at he; simp at he
          | off a _ _ _ _ => rw [a] at he; simp at he
        · intro e; exact absurd e (List.ne_nil_of_mem he)
      · refine ⟨_, ?_, h1, h2, rfl, rfl, fun _ => ⟨rfl, rfl⟩, fun e => absurd e (List.ne_nil_of_mem he)⟩
        have hxt : x ∈ s.table := by rw [h.tab]; exact hx
        simp only [take, hq, onCommit]
        rw [if_pos hun, if_pos ⟨ha, hx, hxt⟩, if_neg hE]
    · refine ⟨{ s with queue := rest, log := .forgotten x :: s.log }, by simp [take, hq, onCommit, ho], ⟨hp.congr rfl rfl rfl rfl rfl, h.tab, h.nd, ?_, h.cp, h.cs, ?_, ?_, ?_, h.ds⟩, ⟨?_, ?_, ?_, ?_, ?_, ?_⟩, rfl, rfl,
        fun _ => ⟨rfl, rfl⟩, fun e => ⟨e, rfl⟩⟩
      · intro e; rw [ho] at e; simp at e
      · intro e; exact h.dk (by simpa using e)
      · intro e; exact h.em (by simpa using e)
      · intro e; simpa using h.sh e
      · intro y
        have := hc.ca y
        simp only [wanting, hq] at this
        simpa [wanting, List.count_cons] using this
      · intro y
        have := hc.cl y
        simp only [leaving, hq] at this
        simp only [leaving, List.count_cons] at this ⊢
        by_cases e : x = y <;> simp_all <;> omega
      · intro y; have := hc.ct y; simpa [List.count_cons] using this
      · intro y; have := hc.cu y; simpa [List.count_cons] using this
      · intro k e; simpa using hc.lo k (by simpa using e)
      · intro y e; rw [ho]; simp
  | .call k :: rest =>
    obtain ⟨hp, hw⟩ := h.ph.take (s' := { s with queue := rest }) hq (by simp) rfl rfl rfl rfl rfl
    have key : ∀ e : List Ev, (∀ x, x ∈ e → x = .called k ∨ (x = .lost k ∧ .emptied ∈ s.log)) →
        Inv src { s with queue := rest, log := e ++ s.log } ∧ Cnt src { s with queue := rest, log := e ++ s.log } := by
      intro g hg
      have hz : ∀ ev, (∀ k, ev ≠ .called k) → (∀ k, ev ≠ .lost k) → ev ∉ g := fun ev q1 q2 q3 => by
        rcases hg ev q3 with e | ⟨e, _⟩
        · exact q1 _ e
        · exact q2 _ e
      have hz' : ∀ ev, (∀ k, ev ≠ .called k) → (∀ k, ev ≠ .lost k) → (g ++ s.log).count ev = s.log.count ev := fun ev q1 q2 => by
        rw [List.count_append, List.count_eq_zero.mpr (hz ev q1 q2), Nat.zero_add]
      refine ⟨⟨hp.congr rfl rfl rfl rfl rfl, h.tab, h.nd, ?_, h.cp, h.cs, ?_, ?_, ?_, h.ds⟩, ⟨?_, ?_, ?_, ?_, ?_, ?_⟩⟩
      · intro e y
        have := h.al e y
        rw [hq, List.cons_append, List.filterMap_cons_none rfl] at this
        exact this
      · intro e
        rcases List.mem_append.mp e with q | q
        · exact absurd q (hz _ (by simp) (by simp))
        · exact h.dk q
      · intro e
        rcases List.mem_append.mp e with q | q
        · exact absurd q (hz _ (by simp) (by simp))
        · exact h.em q
      · intro e
        have := h.sh e
        simp only [List.mem_append]
        grind
      · intro y
        have := hc.ca y
        simp only [wanting, hq] at this
        simp only [hz' (.asked y) (by simp) (by simp), hz' (.confirmed y) (by simp) (by simp), hz' (.unheard y) (by simp) (by simp)]
        simpa [wanting, List.count_cons] using this
      · intro y
        have := hc.cl y
        simp only [leaving, hq] at this
        simp only [hz' (.left y) (by simp) (by simp), hz' (.removed y) (by simp) (by simp), hz' (.forgotten y) (by simp) (by simp)]
        simpa [leaving, List.count_cons] using this
      · intro y
        simp only [hz' (.confirmed y) (by simp) (by simp), hz' (.removed y) (by simp) (by simp)]
        exact hc.ct y
      · intro y
        simp only [hz' (.asked y) (by simp) (by simp), hz' (.left y) (by simp) (by simp)]
        exact hc.cu y
      · intro j e
        rcases List.mem_append.mp e with q | q
        · rcases hg _ q with z | ⟨_, z⟩
          · cases z
          · simp [z]
        · simp [hc.lo j q]
      · intro y e
        have e' : .unheard y ∈ s.log ∨ .forgotten y ∈ s.log := by
          rcases e with q | q <;> rcases List.mem_append.mp q with q | q
          · exact absurd q (hz _ (by simp) (by simp))
          · exact Or.inl q
          · exact absurd q (hz _ (by simp) (by simp))
          · exact Or.inr q
        exact hc.un y e'
    by_cases hk : k ∈ s.kids
    · rcases hw with ⟨ho, ha⟩ | ⟨ho, ha, hu⟩
      · obtain ⟨k1, k2⟩ := key [.called k] (by simp)
        exact ⟨{ s with queue := rest, log := .called k :: s.log }, by simp [take, hq, onCall, ho, full, ha, hk], k1, k2, rfl, rfl, fun _ => ⟨rfl, rfl⟩, fun e => ⟨e, rfl⟩⟩
      · have hem : .emptied ∈ s.log := by
          rcases (h.sh hu).2 with q | q
          · exact q
          · rw [(h.dk q).1] at hk; cases hk
        obtain ⟨k1, k2⟩ := key [.lost k] (by simp [hem])
        exact ⟨{ s with queue := rest, log := .lost k :: s.log }, by simp [take, hq, onCall, ho, hk], k1, k2, rfl, rfl, fun _ => ⟨rfl, rfl⟩, fun e => ⟨e, rfl⟩⟩
    · obtain ⟨k1, k2⟩ := key [] (by simp)
      refine ⟨{ s with queue := rest }, ?_, k1, k2, rfl, rfl, fun _ => ⟨rfl, rfl⟩, fun e => ⟨e, rfl⟩⟩
      rcases hw with ⟨ho, ha⟩ | ⟨ho, ha, hu⟩
      · simp [take, hq, onCall, ho, full, ha, hk]
      · simp [take, hq, onCall, ho, hk]
  | .user u :: rest =>
    obtain ⟨hp, _⟩ := h.ph.take (s' := { s with queue := rest }) hq (by simp) rfl rfl rfl rfl rfl
    obtain ⟨g, e1, e2⟩ := passAll_spec u s.table { s with queue := rest }
    have hz : ∀ ev, (∀ a b, ev ≠ .passed a b) → ev ∉ g := fun ev q1 q3 => by
      obtain ⟨x, e⟩ := e2 ev q3
      exact q1 _ _ e
    have hz' : ∀ ev, (∀ a b, ev ≠ .passed a b) → (g ++ s.log).count ev = s.log.count ev := fun ev q1 => by
      rw [List.count_append, List.count_eq_zero.mpr (hz ev q1), Nat.zero_add]
    have hm : ∀ ev, (∀ a b, ev ≠ .passed a b) → (ev ∈ g ++ s.log ↔ ev ∈ s.log) := fun ev q1 => by
      simp [hz ev q1]
    refine ⟨{ s with queue := rest, log := g ++ s.log }, ?_, ⟨hp.congr rfl rfl rfl rfl rfl, h.tab, h.nd, ?_, h.cp, h.cs, ?_, ?_, ?_, h.ds⟩, ⟨?_, ?_, ?_, ?_, ?_, ?_⟩, rfl, rfl, fun _ => ⟨rfl, rfl⟩, fun e => ⟨e, rfl⟩⟩
    · simp only [take, hq, e1]
    · intro e y
      have := h.al e y
      rw [hq, List.cons_append, List.filterMap_cons_none rfl] at this
      exact this
    · intro e; exact h.dk ((hm _ (by simp)).mp e)
    · intro e; exact h.em ((hm _ (by simp)).mp e)
    · intro e
      rw [hm _ (by simp), hm _ (by simp)]
      exact h.sh e
    · intro y
      have := hc.ca y
      simp only [wanting, hq] at this
      simp only [hz' (.asked y) (by simp), hz' (.confirmed y) (by simp), hz' (.unheard y) (by simp)]
      simpa [wanting, List.count_cons] using this
    · intro y
      have := hc.cl y
      simp only [leaving, hq] at this
      simp only [hz' (.left y) (by simp), hz' (.removed y) (by simp), hz' (.forgotten y) (by simp)]
      simpa [leaving, List.count_cons] using this
    · intro y
      simp only [hz' (.confirmed y) (by simp), hz' (.removed y) (by simp)]
      exact hc.ct y
    · intro y
      simp only [hz' (.asked y) (by simp), hz' (.left y) (by simp)]
      exact hc.cu y
    · intro j e
      rw [hm _ (by simp)] at e ⊢
      exact hc.lo j e
    · intro y e
      rw [hm _ (by simp), hm _ (by simp)] at e
      exact hc.un y e
  | .off a :: rest =>
    have hcn : ∀ (s' : State), s'.log = s.log → s'.queue = rest → s'.chan = s.chan → s'.table = s.table → s'.sub = s.sub → H.ext ∉ s'.own → Cnt src s' := by
      intro s' q1 q2 q3 q4 q5 q6
      refine ⟨?_, ?_, ?_, ?_, ?_, ?_⟩
      · intro y
        have := hc.ca y
        simp only [wanting, hq] at this
        simp only [wanting, q1, q2, q3]
        simpa [List.count_cons] using this
      · intro y
        have := hc.cl y
        simp only [leaving, hq] at this
        simp only [leaving, q1, q2, q3]
        simpa [List.count_cons] using this
      · intro y; rw [q1, q4]; exact hc.ct y
      · intro y; rw [q1, q5]; exact hc.cu y
      · rw [q1]; exact hc.lo
      · intro _ _; exact q6
    have hne : s.uns ≠ [] := by
      cases h.ph with
      | on _ _ _ d => exact absurd (by rw [hq]; simp) (d a)
      | going _ b _ _ _ _ _ _ => exact ne_of_all b
      | two _ b _ _ _ _ => exact ne_of_all b
      | one _ b _ _ _ _ => exact ne_of_all b
      | off _ b _ _ _ => exact ne_of_all b
    cases h.ph with
    | on _ _ _ d => exact absurd (by rw [hq]; simp) (d a)
    | going h1 h2 h3 pre post h4 h5 h6 =>
      cases pre with
      | cons y pre =>
        rw [hq] at h4
        simp only [List.cons_append, List.cons.injEq] at h4
        exact absurd (by simp [h4.1]) (h5 a)
      | nil =>
        rw [hq] at h4
        simp only [List.nil_append, List.cons.injEq, Msg.off.injEq] at h4
        obtain ⟨rfl, h4⟩ := h4
        refine ⟨{ s with queue := rest, own := [.call, .unsub] }, by simp [take, hq, onOff, h1, full, h3], ⟨.two rfl h2 h3 post h4 h6, h.tab, h.nd, by simp, h.cp, h.cs, h.dk, h.em, h.sh, ?_⟩,
          hcn _ rfl rfl rfl rfl rfl (by simp), rfl, rfl, fun _ => ⟨rfl, rfl⟩, fun e => by rw [h1] at e; simp [full] at e⟩
        intro e
        have := h.ds e
        rw [h1] at this
        simp [full] at this
    | two h1 h2 h3 post h4 h6 =>
      rw [hq] at h4
      simp only [List.cons.injEq, Msg.off.injEq] at h4
      obtain ⟨rfl, h4⟩ := h4
      refine ⟨{ s with queue := rest, own := [.call] }, by simp [take, hq, onOff, h1, h3], ⟨.one rfl h2 h3 post h4 h6, h.tab, h.nd, by simp, h.cp, h.cs, h.dk, h.em, h.sh, ?_⟩,
        hcn _ rfl rfl rfl rfl rfl (by simp), rfl, rfl, fun _ => ⟨rfl, rfl⟩, fun e => by rw [h1] at e; simp at e⟩
      intro e
      have := h.ds e
      rw [h1] at this
      simp at this
    | one h1 h2 h3 post h4 h6 =>
      rw [hq] at h4
      simp only [List.cons.injEq, Msg.off.injEq] at h4
      obtain ⟨rfl, h4⟩ := h4
      refine ⟨{ s with queue := rest, own := [], deact := false, active := false }, by simp [take, hq, onOff, h1, h3], ⟨.off rfl h2 rfl rfl (by rw [h4]; exact h6), h.tab, h.nd, by simp, h.cp, h.cs, h.dk, h.em, h.sh, fun _ => rfl⟩,
        hcn _ rfl rfl rfl rfl rfl (by simp), rfl, rfl, fun _ => ⟨rfl, rfl⟩, fun _ => ⟨rfl, rfl⟩⟩
    | off _ _ _ _ d => exact absurd (by rw [hq]; simp) (d a)

end Verif.Farewell
