import Verif.Drain.Lemmas

/-!
# C78: messages left in the queues of a supervisor that is destroyed
-/

namespace Verif.Drain

/-! ## no reference is forgotten and none is used twice -/

/-- A message is destroyed at most once, and not while something refers to it: nothing in a queue, in the hands of a loop or of user code is
a destroyed message. -/
theorem C78_destroyed_once (c : Cfg) (ops : List Op) (σ : State) (h : run c State.init ops = .ok σ) (m : Nat) :
    σ.log.countP (isFreed m) ≤ 1 ∧ ∀ r, .freed m r ∈ σ.log → Unheld σ m := by
  have i := run_inv ops _ _ init_inv h
  exact ⟨i.core.f1 m, fun r hr => refs_zero.1 (i.core.fr m r hr)⟩

/-- And it is destroyed as soon as nothing refers to it, so that those left in the queues of supervisors and contexts that are destroyed do not leak. -/
theorem C78_not_leaked (c : Cfg) (ops : List Op) (σ : State) (h : run c State.init ops = .ok σ) (m : Nat) (r : Bool) (hs : .sent m r ∈ σ.log)
    (hu : Unheld σ m) : ∃ r, .freed m r ∈ σ.log := by
  have i := run_inv ops _ _ init_inv h
  refine i.fz m ?_ (refs_zero.2 hu)
  rcases Nat.lt_or_ge m σ.next with h1 | h1
  · exact h1
  · exact absurd hs ((i.core.fresh m h1).1 r)

/-! ## the second destination -/

/-- Only messages with a second destination are sent on, and each of them once. -/
theorem C78_one_hop (c : Cfg) (ops : List Op) (σ : State) (h : run c State.init ops = .ok σ) (m : Nat) :
    σ.log.count (.hop m) ≤ 1 ∧ (.hop m ∈ σ.log → .sent m true ∈ σ.log) := by
  have i := run_inv ops _ _ init_inv h
  exact ⟨i.core.h1 m, i.core.hs m⟩

/-- A message with a second destination that is destroyed has been sent there, or it is destroyed with the second destination still to go to. -/
theorem C78_sent_on (c : Cfg) (ops : List Op) (σ : State) (h : run c State.init ops = .ok σ) (m : Nat) (r : Bool)
    (hs : .sent m true ∈ σ.log) (hf : .freed m r ∈ σ.log) : .hop m ∈ σ.log ∨ r = true := by
  have i := run_inv ops _ _ init_inv h
  cases r with
  | true => exact .inr rfl
  | false => exact .inl (i.core.fb m hf hs)

theorem release_log {m x : Nat} {r : Bool} {σ : State} (h : .freed x r ∈ (release m σ).log) :
    .freed x r ∈ σ.log ∨ (x = m ∧ r = σ.route m ∧ refs σ m = 0) := by
  simp only [release] at h
  split at h
  · rename_i hz
    simp only [List.mem_cons, Ev.freed.injEq] at h
    rcases h with h | h
    · exact .inr ⟨h.1, h.2, hz⟩
    · exact .inl h
  · exact .inl h

theorem hop_log {c : Cfg} {m s x : Nat} {r : Bool} {σ σ' : State} (he : hop c m s σ = .ok σ') (h : .freed x r ∈ σ'.log) : .freed x r ∈ σ.log := by
  simp only [hop] at he
  split at he
  · simp at he
  · simp at he
  · split at he
    · simp at he
    · split at he
      · simp at he
      · simp only [Except.ok.injEq] at he
        subst he
        simpa using h

theorem drop_log {c : Cfg} {e : Msg} {x : Nat} {σ σ' : State} (he : drop c e σ = .ok σ') (h : .freed x true ∈ σ'.log) :
    .freed x true ∈ σ.log ∨ e = .plain x := by
  cases e with
  | plain m =>
    simp only [drop, Except.ok.injEq] at he
    subst he
    rcases release_log h with k | k
    · exact .inl k
    · rw [k.1]; exact .inr rfl
  | call m s =>
    simp only [drop] at he
    split at he
    · exact .inl (hop_log he h)
    · rename_i hn
      simp only [Except.ok.injEq] at he
      subst he
      rcases release_log h with k | k
      · exact .inl k
      · exact absurd ⟨k.2.1.symm, k.2.2⟩ hn

/-- The second kind happens in two ways only: the last reference was a pointer of user code, or the message itself (not a wrapped call of it)
was still in a queue that is destroyed, so that its first recipients have not seen it either. The end of a turn of a loop and the
destruction of a wrapped call never lose a message. -/
theorem C78_lost_only (c : Cfg) (σ σ' : State) (op : Op) (h : step c σ op = .ok σ') (m : Nat)
    (hf : .freed m true ∈ σ'.log) (hn : .freed m true ∉ σ.log) :
    op = .forget m ∨ ∃ s, (op = .pop s ∨ op = .drain s) ∧ ((s, .plain m) ∈ σ.inb ∨ (s, .plain m) ∈ σ.queue) := by
  cases op with
  | send s r =>
    simp only [step] at h
    split at h
    · simp only [Except.ok.injEq] at h; subst h
      exact absurd (by simpa using hf) hn
    · simp at h
  | move l =>
    simp only [step] at h
    split at h
    · split at h
      · simp only [Except.ok.injEq] at h; subst h; exact absurd hf hn
      · simp at h
    · simp at h
  | take l =>
    simp only [step] at h
    split at h
    · split at h
      · simp only [Except.ok.injEq] at h; subst h; exact absurd hf hn
      · simp at h
    · simp at h
  | wrap l s =>
    simp only [step] at h
    split at h
    · split at h
      · simp only [Except.ok.injEq] at h; subst h; exact absurd hf hn
      · simp at h
    · simp at h
  | keep l =>
    simp only [step] at h
    split at h
    · simp only [Except.ok.injEq] at h; subst h; exact absurd hf hn
    · simp at h
  | forget x =>
    simp only [step] at h
    split at h
    · simp only [Except.ok.injEq] at h; subst h
      rcases release_log hf with k | k
      · exact absurd k hn
      · rw [k.1]; exact .inl rfl
    · simp at h
  | done l =>
    simp only [step] at h
    split at h
    · rename_i e hf'
      cases e with
      | plain x =>
        simp only at h
        split at h
        · simp only [Except.ok.injEq] at h; subst h
          exact absurd (by simpa using hf) hn
        · rename_i hr
          simp only [Except.ok.injEq] at h; subst h
          rcases release_log hf with k | k
          · exact absurd k hn
          · exact absurd ⟨k.2.1.symm, k.2.2⟩ hr
      | call x s =>
        rcases drop_log h hf with k | k
        · exact absurd k hn
        · simp at k
    · simp at h
  | destroy s =>
    simp only [step] at h
    split at h
    · simp only [Except.ok.injEq] at h; subst h; exact absurd hf hn
    · simp at h
  | pop s =>
    simp only [step] at h
    split at h
    · split at h
      · rename_i e he
        rcases drop_log h hf with k | k
        · exact absurd k hn
        · exact .inr ⟨s, .inl rfl, .inl (k ▸ first_mem he)⟩
      · split at h
        · rename_i e he
          rcases drop_log h hf with k | k
          · exact absurd k hn
          · exact .inr ⟨s, .inl rfl, .inr (k ▸ first_mem he)⟩
        · simp at h
    · simp at h
  | finish s =>
    simp only [step] at h
    split at h
    · simp only [Except.ok.injEq] at h; subst h; exact absurd hf hn
    · simp at h
  | close r =>
    simp only [step, Except.ok.injEq] at h; subst h; exact absurd hf hn
  | drain r =>
    simp only [step] at h
    split at h
    · split at h
      · rename_i e he
        rcases drop_log h hf with k | k
        · exact absurd k hn
        · exact .inr ⟨r, .inr rfl, .inl (k ▸ first_mem he)⟩
      · simp at h
    · simp at h

end Verif.Drain
