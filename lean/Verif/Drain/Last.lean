import Verif.Drain.Ends

/-!
# C78: when a message is sent on, and what is left of a supervisor
-/

namespace Verif.Drain

/-- what a hop through the inbound queue leaves -/
def Through (c : Cfg) (σ σ' : State) (m : Nat) : Prop :=
  (∃ s, Wrapped σ m s ∧ σ'.inb.getLast? = some (c.box s, .plain m) ∧ Unheld { σ' with inb := σ'.inb.dropLast } m) ∨
  (∃ l, (l, .plain m) ∈ σ.cur ∧ σ'.queue.getLast? = some (l, .plain m) ∧ Unheld { σ' with queue := σ'.queue.dropLast } m)

theorem release_hop {m x : Nat} {σ : State} (h : .hop x ∈ (release m σ).log) : .hop x ∈ σ.log := by
  simp only [release] at h
  split at h
  · simpa using h
  · exact h

theorem drop_hop {c : Cfg} {e : Msg} {x : Nat} {σ σ' : State} (he : drop c e σ = .ok σ') (h : .hop x ∈ σ'.log) (hn : .hop x ∉ σ.log) :
    ∃ s, e = .call x s ∧ σ'.inb.getLast? = some (c.box s, .plain x) ∧ Unheld { σ' with inb := σ'.inb.dropLast } x := by
  cases e with
  | plain m =>
    simp only [drop, Except.ok.injEq] at he
    subst he
    exact absurd (release_hop h) hn
  | call m s =>
    simp only [drop] at he
    split at he
    · rename_i hr
      simp only [hop] at he
      split at he
      · simp at he
      · simp at he
      · split at he
        · simp at he
        · split at he
          · simp at he
          · simp only [Except.ok.injEq] at he
            subst he
            simp only [List.mem_cons, Ev.hop.injEq] at h
            rcases h with h | h
            · subst h
              refine ⟨s, rfl, by simp, ?_⟩
              simp only [List.dropLast_concat]
              exact refs_zero.1 hr.2
            · exact absurd h hn
    · simp only [Except.ok.injEq] at he
      subst he
      exact absurd (release_hop h) hn

/-- A message is sent on only by the last that refers to it: by the destructor of a wrapped call, into the inbound queue of the handler's supervisor (or its leader), or at
the end of a turn, into the queue of the loop. Nothing but the entry in that queue refers to it then, so nobody uses a message that is already on its way to the
second recipients. -/
theorem C78_last (c : Cfg) (σ σ' : State) (op : Op) (h : step c σ op = .ok σ') (m : Nat) (hh : .hop m ∈ σ'.log) (hn : .hop m ∉ σ.log) : Through c σ σ' m := by
  cases op with
  | send s r =>
    simp only [step] at h
    split at h
    · simp only [Except.ok.injEq] at h; subst h
      exact absurd (by simpa using hh) hn
    · simp at h
  | move l =>
    simp only [step] at h
    split at h
    · split at h
      · simp only [Except.ok.injEq] at h; subst h; exact absurd hh hn
      · simp at h
    · simp at h
  | take l =>
    simp only [step] at h
    split at h
    · split at h
      · simp only [Except.ok.injEq] at h; subst h; exact absurd hh hn
      · simp at h
    · simp at h
  | wrap l s =>
    simp only [step] at h
    split at h
    · split at h
      · simp only [Except.ok.injEq] at h; subst h; exact absurd hh hn
      · simp at h
    · simp at h
  | keep l =>
    simp only [step] at h
    split at h
    · simp only [Except.ok.injEq] at h; subst h; exact absurd hh hn
    · simp at h
  | forget x =>
    simp only [step] at h
    split at h
    · simp only [Except.ok.injEq] at h; subst h
      exact absurd (release_hop hh) hn
    · simp at h
  | done l =>
    simp only [step] at h
    split at h
    · rename_i e hf
      cases e with
      | plain x =>
        simp only at h
        split at h
        · rename_i hr
          simp only [Except.ok.injEq] at h; subst h
          simp only [List.mem_cons, Ev.hop.injEq] at hh
          rcases hh with hh | hh
          · subst hh
            refine .inr ⟨l, first_mem hf, by simp, ?_⟩
            simp only [List.dropLast_concat]
            exact refs_zero.1 hr.2
          · exact absurd hh hn
        · simp only [Except.ok.injEq] at h; subst h
          exact absurd (release_hop hh) hn
      | call x s =>
        obtain ⟨y, k1, k2⟩ := drop_hop h hh hn
        exact .inl ⟨y, ⟨l, .inr (.inr (k1 ▸ first_mem hf))⟩, k2⟩
    · simp at h
  | destroy s =>
    simp only [step] at h
    split at h
    · simp only [Except.ok.injEq] at h; subst h; exact absurd hh hn
    · simp at h
  | pop s =>
    simp only [step] at h
    split at h
    · split at h
      · rename_i e hf
        obtain ⟨y, k1, k2⟩ := drop_hop h hh hn
        exact .inl ⟨y, ⟨s, .inl (k1 ▸ first_mem hf)⟩, k2⟩
      · split at h
        · rename_i e hf
          obtain ⟨y, k1, k2⟩ := drop_hop h hh hn
          exact .inl ⟨y, ⟨s, .inr (.inl (k1 ▸ first_mem hf))⟩, k2⟩
        · simp at h
    · simp at h
  | finish s =>
    simp only [step] at h
    split at h
    · simp only [Except.ok.injEq] at h; subst h; exact absurd hh hn
    · simp at h
  | close r =>
    simp only [step, Except.ok.injEq] at h; subst h; exact absurd hh hn
  | drain r =>
    simp only [step] at h
    split at h
    · split at h
      · rename_i e hf
        obtain ⟨y, k1, k2⟩ := drop_hop h hh hn
        exact .inl ⟨y, ⟨r, .inl (k1 ▸ first_mem hf)⟩, k2⟩
      · simp at h
    · simp at h

/-! ## nothing is left in the queues of a supervisor that is gone -/

structure Clear (σ : State) : Prop where
  gone : ∀ s, σ.phase s = .gone → (∀ e ∈ σ.inb, e.1 ≠ s) ∧ (∀ e ∈ σ.queue, e.1 ≠ s)
  cur : ∀ e ∈ σ.cur, σ.phase e.1 = .alive

theorem Clear.less {σ σ' : State} (h : Clear σ) (hp : σ'.phase = σ.phase) (hi : ∀ e ∈ σ'.inb, e ∈ σ.inb ∨ σ.phase e.1 = .alive)
    (hq : ∀ e ∈ σ'.queue, e ∈ σ.queue ∨ σ.phase e.1 = .alive) (hc : ∀ e ∈ σ'.cur, e ∈ σ.cur ∨ σ.phase e.1 = .alive) : Clear σ' where
  gone s hs := by
    rw [hp] at hs
    refine ⟨fun e he ee => ?_, fun e he ee => ?_⟩
    · rcases hi e he with k | k
      · exact (h.gone s hs).1 e k ee
      · rw [ee, hs] at k; simp at k
    · rcases hq e he with k | k
      · exact (h.gone s hs).2 e k ee
      · rw [ee, hs] at k; simp at k
  cur e he := by
    rw [hp]
    rcases hc e he with k | k
    · exact h.cur e k
    · exact k

theorem release_clear {m : Nat} {σ : State} (h : Clear σ) : Clear (release m σ) := by
  simp only [release]
  split
  · exact ⟨h.gone, h.cur⟩
  · exact h

theorem drop_clear {c : Cfg} {e : Msg} {σ σ' : State} (h : Clear σ) (he : drop c e σ = .ok σ') : Clear σ' := by
  cases e with
  | plain m =>
    simp only [drop, Except.ok.injEq] at he
    subst he; exact release_clear h
  | call m s =>
    simp only [drop] at he
    split at he
    · simp only [hop] at he
      split at he
      · simp at he
      · simp at he
      · split at he
        · simp at he
        · rename_i hb
          split at he
          · simp at he
          · simp only [Except.ok.injEq] at he
            subst he
            refine h.less rfl (fun e he => ?_) (fun _ k => .inl k) (fun _ k => .inl k)
            simp only [List.mem_append, List.mem_singleton] at he
            rcases he with he | he
            · exact .inl he
            · subst he
              exact .inr (by simpa using hb)
    · simp only [Except.ok.injEq] at he
      subst he; exact release_clear h

theorem step_clear {c : Cfg} {σ σ' : State} {op : Op} (h : Clear σ) (he : step c σ op = .ok σ') : Clear σ' := by
  have herase : ∀ (q : List (Nat × Msg)) (x : Nat × Msg), ∀ e ∈ q.erase x, e ∈ q ∨ σ.phase e.1 = .alive := fun q x e k => .inl (List.mem_of_mem_erase k)
  have hsame : ∀ (q : List (Nat × Msg)), ∀ e ∈ q, e ∈ q ∨ σ.phase e.1 = .alive := fun q e k => .inl k
  have hput : ∀ (q : List (Nat × Msg)) (l : Nat) (y : Msg), σ.phase l = .alive → ∀ e ∈ q ++ [(l, y)], e ∈ q ∨ σ.phase e.1 = .alive := by
    intro q l y hl e k
    simp only [List.mem_append, List.mem_singleton] at k
    rcases k with k | k
    · exact .inl k
    · subst k; exact .inr hl
  cases op with
  | send s r =>
    simp only [step] at he
    split at he
    · rename_i ha
      simp only [Except.ok.injEq] at he; subst he
      exact h.less rfl (hput _ _ _ ha.2.1) (hsame _) (hsame _)
    · simp at he
  | move l =>
    simp only [step] at he
    split at he
    · split at he
      · rename_i ha
        simp only [Except.ok.injEq] at he; subst he
        exact h.less rfl (herase _ _) (hput _ _ _ ha) (hsame _)
      · simp at he
    · simp at he
  | take l =>
    simp only [step] at he
    split at he
    · split at he
      · rename_i ha
        simp only [Except.ok.injEq] at he; subst he
        refine h.less rfl (hsame _) (herase _ _) (fun e k => ?_)
        simp only [List.mem_cons] at k
        rcases k with k | k
        · subst k; exact .inr ha.1
        · exact .inl k
      · simp at he
    · simp at he
  | wrap l s =>
    simp only [step] at he
    split at he
    · split at he
      · rename_i ha
        simp only [Except.ok.injEq] at he; subst he
        exact h.less rfl (hput _ _ _ ha.2.1) (hsame _) (hsame _)
      · simp at he
    · simp at he
  | keep l =>
    simp only [step] at he
    split at he
    · simp only [Except.ok.injEq] at he; subst he
      exact h.less rfl (hsame _) (hsame _) (hsame _)
    · simp at he
  | forget m =>
    simp only [step] at he
    split at he
    · simp only [Except.ok.injEq] at he; subst he
      exact release_clear (h.less rfl (hsame _) (hsame _) (hsame _))
    · simp at he
  | done l =>
    simp only [step] at he
    split at he
    · rename_i e hf
      have h' : Clear { σ with cur := σ.cur.erase (l, e) } := h.less rfl (hsame _) (hsame _) (herase _ _)
      cases e with
      | plain m =>
        simp only at he
        split at he
        · simp only [Except.ok.injEq] at he; subst he
          exact h'.less rfl (hsame _) (hput _ _ _ (h.cur _ (first_mem hf))) (hsame _)
        · simp only [Except.ok.injEq] at he; subst he
          exact release_clear h'
      | call m s => exact drop_clear h' he
    · simp at he
  | destroy s =>
    simp only [step] at he
    split at he
    · rename_i ha
      simp only [Except.ok.injEq] at he; subst he
      constructor
      · intro x hx
        simp only [upd] at hx
        split at hx
        · simp at hx
        · exact h.gone x hx
      · intro e k
        have := first_none ha.2 e k
        simp only [upd, if_neg this]
        exact h.cur e k
    · simp at he
  | pop s =>
    simp only [step] at he
    split at he
    · split at he
      · refine drop_clear ?_ he; exact h.less rfl (herase _ _) (hsame _) (hsame _)
      · split at he
        · refine drop_clear ?_ he; exact h.less rfl (hsame _) (herase _ _) (hsame _)
        · simp at he
    · simp at he
  | finish s =>
    simp only [step] at he
    split at he
    · rename_i ha
      simp only [Except.ok.injEq] at he; subst he
      constructor
      · intro x hx
        simp only [upd] at hx
        split at hx
        · rename_i e; subst e
          exact ⟨first_none ha.2.1, first_none ha.2.2⟩
        · exact h.gone x hx
      · intro e k
        have k1 := h.cur e k
        have : e.1 ≠ s := by intro ee; rw [ee, ha.1] at k1; simp at k1
        simp only [upd, if_neg this]
        exact k1
    · simp at he
  | close r =>
    simp only [step, Except.ok.injEq] at he; subst he
    exact h.less rfl (hsame _) (hsame _) (hsame _)
  | drain r =>
    simp only [step] at he
    split at he
    · split at he
      · refine drop_clear ?_ he; exact h.less rfl (herase _ _) (hsame _) (hsame _)
      · simp at he
    · simp at he

theorem run_clear {c : Cfg} : ∀ (ops : List Op) (σ σ' : State), Clear σ → run c σ ops = .ok σ' → Clear σ' := by
  intro ops
  induction ops with
  | nil => intro σ σ' h he; simp only [run, Except.ok.injEq] at he; subst he; exact h
  | cons op ops ih =>
    intro σ σ' h he
    simp only [run] at he
    split at he
    · simp at he
    · rename_i σ1 h1; exact ih _ _ (step_clear h h1) he

/-- Nothing is in the queues of a supervisor that has been destroyed, neither left there nor put there later, and no loop that works on a message is that of a supervisor that
is being destroyed. -/
theorem C78_nothing_left (c : Cfg) (ops : List Op) (σ : State) (h : run c State.init ops = .ok σ) :
    (∀ s, σ.phase s = .gone → (∀ e ∈ σ.inb, e.1 ≠ s) ∧ (∀ e ∈ σ.queue, e.1 ≠ s)) ∧ ∀ e ∈ σ.cur, σ.phase e.1 = .alive := by
  have i := run_clear ops _ _ (show Clear State.init from ⟨by simp [State.init], by simp [State.init]⟩) h
  exact ⟨i.gone, i.cur⟩

end Verif.Drain
