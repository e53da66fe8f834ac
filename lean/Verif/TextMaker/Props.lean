import Verif.TextMaker.Spec
/-!
# C81: all supervisors of a context print with one stringifier, made once
-/

namespace Verif.TextMaker

/-- somebody has it, or at most one asks for it -/
inductive Inv (s : State) : Prop where
  | there (hd : ∃ k, s.pc k = .done 0) (hp : s.ptr = some 0) (hc : s.count = 1) (hx : s.dead = [])
      (ha : ∀ k, s.pc k = .idle ∨ s.pc k = .start ∨ s.pc k = .ret ∨ s.pc k = .done 0)
  | none (k : Nat) (ho : ∀ j, j ≠ k → s.pc j = .idle) (hx : s.dead = [])
      (hk : ((s.pc k = .idle ∨ s.pc k = .start ∨ s.pc k = .empty) ∧ s.ptr = none ∧ s.count = 0) ∨
            (s.pc k = .made 0 ∧ s.ptr = none ∧ s.count = 1) ∨ (s.pc k = .ret ∧ s.ptr = some 0 ∧ s.count = 1))

theorem Inv.init : Inv State.init := .none 0 (fun _ _ => rfl) rfl (.inl ⟨.inl rfl, rfl, rfl⟩)

theorem begin_inv {s s' : State} {k : Nat} (i : Inv s) (hk : s.pc k = .idle)
    (hb : (∀ j, s.pc j = .idle) ∨ ∃ j o, s.pc j = .done o)
    (h : s'.ptr = s.ptr ∧ s'.count = s.count ∧ s'.dead = s.dead ∧ s'.pc = upd s.pc k .start) : Inv s' := by
  obtain ⟨h1, h2, h3, h4⟩ := h
  cases i with
  | there hd hp hc hx ha =>
    obtain ⟨d, hd⟩ := hd
    refine .there ⟨d, ?_⟩ (h1.trans hp) (h2.trans hc) (h3.trans hx) ?_
    · rw [h4]; simp only [upd]; grind
    · intro j; rw [h4]; simp only [upd]; grind
  | none q ho hx hq =>
    have hall : ∀ j, s.pc j = .idle := by
      rcases hb with hb | ⟨j, o, hb⟩
      · exact hb
      · exfalso
        by_cases hj : j = q
        · subst hj; grind
        · rw [ho j hj] at hb; cases hb
    refine .none k ?_ (h3.trans hx) (.inl ?_)
    · intro j hj; rw [h4]; simp only [upd]; grind
    · rw [h4, h1, h2]; have := hall q; simp only [upd]; grind

theorem step_inv {s s' : State} {op : Op} (i : Inv s) (hc : calmStep s op) (h : step s op = .ok s') : Inv s' := by
  cases op with
  | create k =>
    simp only [step] at h
    split at h
    · rename_i hk
      split at h
      · rename_i hr
        cases h
        refine begin_inv i hk ?_ ⟨rfl, rfl, rfl, rfl⟩
        rcases hc with hc | hc | hc
        · exact .inl hc
        · exact absurd hr hc
        · exact .inr hc
      · cases h
        cases i with
        | there a b c d e => exact .there a b c d e
        | none a b c d => exact .none a b c d
    · cases h
  | child p k =>
    simp only [step] at h
    split at h
    · rename_i hk
      cases h
      refine begin_inv i hk.1 (.inr ?_) ⟨rfl, rfl, rfl, rfl⟩
      cases hp : s.pc p with
      | done o => exact ⟨p, o, hp⟩
      | _ => rw [hp] at hk; simp [isDone] at hk
    · cases h
  | call k =>
    simp only [step] at h
    split at h
    · rename_i hk
      cases h
      exact begin_inv i hk hc ⟨rfl, rfl, rfl, rfl⟩
    · cases h
  | go k =>
    simp only [step, advance] at h
    cases i with
    | there hd hp hc hx ha =>
      obtain ⟨d, hd⟩ := hd
      rcases ha k with hk | hk | hk | hk
      · simp [hk] at h
      · simp only [hk, hp] at h; cases h
        refine .there ⟨d, ?_⟩ rfl hc hx ?_
        · simp only [upd]; grind
        · intro j; simp only [upd]; grind
      · simp only [hk, hp] at h; cases h
        refine .there ⟨k, ?_⟩ rfl hc hx ?_
        · simp [upd]
        · intro j; simp only [upd]; grind
      · simp [hk] at h
    | none q ho hx hq =>
      by_cases hkq : k = q
      · subst hkq
        rcases hq with ⟨hq, hp, hc⟩ | ⟨hq, hp, hc⟩ | ⟨hq, hp, hc⟩
        · rcases hq with hq | hq | hq
          · simp [hq] at h
          · simp only [hq, hp] at h; cases h
            refine .none k ?_ hx (.inl ?_)
            · intro j hj; simp only [upd]; grind
            · simp [upd, hp, hc]
          · simp only [hq] at h; cases h
            refine .none k ?_ hx (.inr (.inl ?_))
            · intro j hj; simp only [upd]; grind
            · simp [upd, hp, hc]
        · simp only [hq] at h; cases h
          refine .none k ?_ ?_ (.inr (.inr ?_))
          · intro j hj; simp only [upd]; grind
          · simp [hp, hx]
          · simp [upd, hc]
        · simp only [hq, hp] at h; cases h
          refine .there ⟨k, ?_⟩ rfl hc hx ?_
          · simp [upd]
          · intro j; simp only [upd]; grind
      · simp [ho k hkq] at h
  | use k =>
    simp only [step] at h
    split at h
    · split at h
      · cases h
      · cases h; exact i
    · cases h

theorem run_inv {s s' : State} {ops : List Op} (i : Inv s) (hc : Calm s ops) (h : run s ops = .ok s') : Inv s' := by
  induction ops generalizing s with
  | nil => cases h; exact i
  | cons op r ih =>
    simp only [run] at h
    split at h
    · cases h
    · rename_i s1 h1; exact ih (step_inv i hc.1 h1) (hc.2 s1 h1) h

/-- **C81**. At most one stringifier is made, and it is never destroyed. -/
theorem C81_once {ops s} (hc : Calm State.init ops) (h : run State.init ops = .ok s) : s.count ≤ 1 ∧ s.dead = [] := by
  cases run_inv Inv.init hc h with
  | there _ _ c d _ => exact ⟨by omega, d⟩
  | none _ _ d hk => exact ⟨by rcases hk with hk | hk | hk <;> omega, d⟩

/-- **C81**. All that have got a stringifier have got the same: that of the context. -/
theorem C81_same {ops s} (hc : Calm State.init ops) (h : run State.init ops = .ok s) {k o} (hk : s.pc k = .done o) : s.ptr = some o := by
  cases run_inv Inv.init hc h with
  | there _ b _ _ e => rcases e k with e | e | e | e <;> rw [e] at hk <;> cases hk; exact b
  | none q ho _ hq =>
    by_cases hkq : k = q
    · subst hkq; grind
    · rw [ho k hkq] at hk; cases hk

/-- **C81**. Nothing that is destroyed, or was not made, is ever used. -/
theorem C81_no_fault {ops s op} (hc : Calm State.init ops) (h : run State.init ops = .ok s) : step s op ≠ .error .fault := by
  have i := run_inv Inv.init hc h
  have hd := (C81_once hc h).2
  intro hf
  cases op with
  | create k =>
    simp only [step] at hf
    split at hf
    · split at hf <;> cases hf
    · cases hf
  | child p k => simp only [step] at hf; split at hf <;> cases hf
  | call k => simp only [step] at hf; split at hf <;> cases hf
  | go k =>
    simp only [step, advance] at hf
    cases hk : s.pc k with
    | ret =>
      simp only [hk] at hf
      cases i with
      | there _ b _ _ _ => simp only [b] at hf; cases hf
      | none q ho _ hq =>
        by_cases hkq : k = q
        · subst hkq
          have : s.ptr = some 0 := by grind
          simp only [this] at hf; cases hf
        · rw [ho k hkq] at hk; cases hk
    | _ => simp [hk] at hf
  | use k =>
    simp only [step] at hf
    split at hf
    · simp [hd] at hf
    · cases hf

/-- **C81**. Who asks gets it: an activation has its stringifier after four steps at the latest -/
theorem C81_gets {ops s k} (hc : Calm State.init ops) (h : run State.init ops = .ok s) (hk : s.pc k ≠ .idle) :
    ∃ n s', n ≤ 4 ∧ run s (List.replicate n (.go k)) = .ok s' ∧ s'.pc k = .done 0 := by
  have i := run_inv Inv.init hc h
  cases i with
  | there hd hp hcc hx ha =>
    rcases ha k with e | e | e | e
    · exact absurd e hk
    · exact ⟨2, _, by omega, by simp [List.replicate, run, step, advance, e, hp, upd]; rfl, by simp [upd]⟩
    · exact ⟨1, _, by omega, by simp [List.replicate, run, step, advance, e, hp, upd]; rfl, by simp [upd]⟩
    · exact ⟨0, s, by omega, rfl, e⟩
  | none q ho hx hq =>
    by_cases hkq : k = q
    · subst hkq
      rcases hq with ⟨hq, hp, hc⟩ | ⟨hq, hp, hc⟩ | ⟨hq, hp, hc⟩
      · rcases hq with hq | hq | hq
        · exact absurd hq hk
        · exact ⟨4, _, by omega, by simp [List.replicate, run, step, advance, hq, hp, hc, upd]; rfl, by simp [upd]⟩
        · exact ⟨3, _, by omega, by simp [List.replicate, run, step, advance, hq, hp, hc, upd]; rfl, by simp [upd]⟩
      · exact ⟨2, _, by omega, by simp [List.replicate, run, step, advance, hq, hp, upd]; rfl, by simp [upd]⟩
      · exact ⟨1, _, by omega, by simp [List.replicate, run, step, advance, hq, hp, upd]; rfl, by simp [upd]⟩
    · exact absurd (ho k hkq) hk

/-- without calls of the user nothing begins before the root supervisor -/
theorem unasked_calm {ops : List Op} (hu : Unasked ops) : ∀ s, (s.root = none → ∀ j, s.pc j = .idle) → Calm s ops := by
  induction ops with
  | nil => intros; trivial
  | cons op r ih =>
    intro s hs
    have hr : Unasked r := fun k hk => hu k (List.mem_cons_of_mem _ hk)
    refine ⟨?_, ?_⟩
    · cases op with
      | create k =>
        by_cases hn : s.root = none
        · exact .inl (hs hn)
        · exact .inr (.inl hn)
      | call k => exact absurd List.mem_cons_self (hu k)
      | _ => trivial
    · intro s1 h1
      refine ih hr s1 ?_
      cases op with
      | create k =>
        simp only [step] at h1
        split at h1
        · split at h1
          · cases h1; intro hn; cases hn
          · rename_i hr; cases h1; intro hn; simp only at hn; rw [hr] at hn; cases hn
        · cases h1
      | call k => exact absurd List.mem_cons_self (hu k)
      | child p k =>
        simp only [step] at h1
        split at h1
        · rename_i hc
          cases h1; intro hn
          have := hs hn p
          rw [this] at hc; simp [isDone] at hc
        · cases h1
      | go k =>
        intro hn
        have hroot : s1.root = s.root := by
          simp only [step, advance] at h1
          split at h1
          · cases h1; rfl
          · cases h1; rfl
          · cases h1; rfl
          · split at h1
            · cases h1; rfl
            · cases h1
          · cases h1
        have := hs (hroot ▸ hn) k
        simp [step, advance, this] at h1
      | use k =>
        simp only [step] at h1
        split at h1
        · split at h1
          · cases h1
          · cases h1; exact hs
        · cases h1

/-- **C81**. If the user does not ask for the stringifier, the library itself is safe: supervisors may be created in any number of threads. -/
theorem C81_library {ops s} (hu : Unasked ops) (h : run State.init ops = .ok s) :
    s.count ≤ 1 ∧ s.dead = [] ∧ (∀ k o, s.pc k = .done o → s.ptr = some o) ∧ ∀ op, step s op ≠ .error .fault := by
  have hc := unasked_calm hu State.init (fun _ _ => rfl)
  exact ⟨(C81_once hc h).1, (C81_once hc h).2, fun k o hk => C81_same hc h hk, fun op => C81_no_fault hc h⟩

theorem step_root {s s' : State} {op : Op} (h : step s op = .ok s') {r} (hr : s.root = some r) : s'.root = some r := by
  cases op with
  | create k => simp only [step, hr] at h; split at h <;> cases h; rfl
  | child p k => simp only [step] at h; split at h <;> cases h; exact hr
  | call k => simp only [step] at h; split at h <;> cases h; exact hr
  | go k =>
    simp only [step, advance] at h
    split at h
    · cases h; exact hr
    · cases h; exact hr
    · cases h; exact hr
    · split at h
      · cases h; exact hr
      · cases h
    · cases h
  | use k =>
    simp only [step] at h
    split at h
    · split at h <;> cases h; exact hr
    · cases h

/-- **C81**. A context has one root supervisor: the first, whatever the user does; another one is not taken, not activated, and leaves
everything as it was. -/
theorem C81_one_root {ops s r} (hr : s.root = some r) {s'} (h : run s ops = .ok s') : s'.root = some r ∧
    ∀ k, s'.pc k = .idle → ∃ s'', step s' (.create k) = .ok s'' ∧ s''.pc = s'.pc ∧ s''.ptr = s'.ptr ∧ s''.root = some r ∧ k ∈ s''.refused := by
  have : s'.root = some r := by
    induction ops generalizing s with
    | nil => cases h; exact hr
    | cons op q ih =>
      simp only [run] at h
      split at h
      · cases h
      · rename_i s1 h1; exact ih (step_root h1 hr) h
  refine ⟨this, fun k hk => ⟨{ s' with refused := k :: s'.refused }, ?_, rfl, rfl, this, List.mem_cons_self⟩⟩
  simp [step, hk, this]

theorem run_append {s s' : State} {a b : List Op} (h : run s (a ++ b) = .ok s') : ∃ t, run s a = .ok t ∧ run t b = .ok s' := by
  induction a generalizing s with
  | nil => exact ⟨s, rfl, h⟩
  | cons op r ih =>
    simp only [List.cons_append, run] at h
    split at h
    · cases h
    · rename_i s1 h1
      obtain ⟨t, h2, h3⟩ := ih h
      exact ⟨t, by simp [run, h1, h2], h3⟩

theorem uncreated_root {s s' : State} {ops : List Op} (hn : ∀ k, Op.create k ∉ ops) (h : run s ops = .ok s') : s'.root = s.root := by
  induction ops generalizing s with
  | nil => cases h; rfl
  | cons op r ih =>
    simp only [run] at h
    split at h
    · cases h
    · rename_i s1 h1
      rw [ih (fun k hk => hn k (List.mem_cons_of_mem _ hk)) h]
      cases op with
      | create k => exact absurd List.mem_cons_self (hn k)
      | child p k => simp only [step] at h1; split at h1 <;> cases h1; rfl
      | call k => simp only [step] at h1; split at h1 <;> cases h1; rfl
      | go k =>
        simp only [step, advance] at h1
        split at h1
        · cases h1; rfl
        · cases h1; rfl
        · cases h1; rfl
        · split at h1
          · cases h1; rfl
          · cases h1
        · cases h1
      | use k =>
        simp only [step] at h1
        split at h1
        · split at h1 <;> cases h1; rfl
        · cases h1

/-- **C81**. The root supervisor of a context is the one that was created first, for ever. -/
theorem C81_first_root {pre post : List Op} {k s} (hf : ∀ j, Op.create j ∉ pre) (h : run State.init (pre ++ .create k :: post) = .ok s) :
    s.root = some k := by
  obtain ⟨t, h1, h2⟩ := run_append h
  have ht : t.root = none := uncreated_root hf h1
  simp only [run] at h2
  split at h2
  · cases h2
  · rename_i t1 h3
    have : t1.root = some k := by
      simp only [step, ht] at h3
      split at h3 <;> cases h3
      rfl
    exact (C81_one_root this h2).1

end Verif.TextMaker
