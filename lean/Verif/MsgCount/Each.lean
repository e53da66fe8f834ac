import Verif.MsgCount.Props

/-!
# C66: what may be done with messages can be done, and each message goes where it is put

`include/rotor/message.h:57-151`, `include/rotor/supervisor.h:182, 445-469`, `src/rotor/supervisor.cpp:34-39, 165-171`.
-/

namespace Verif.MsgCount

/-- the user and the library may do this: they have what they use, and the supervisor exists -/
def Legal (n : Nat) (σ : State) : Label → Prop
  | .create ms => ∀ m ∈ ms, m ∈ σ.vars
  | .copy m => m ∈ σ.vars
  | .drop m => m ∈ σ.vars
  | .put m s => m ∈ σ.vars ∧ s < n ∧ σ.dead s = false
  | .enqueue m s => m ∈ σ.vars ∧ s < n ∧ σ.dead s = false
  | .defer m s => m ∈ σ.vars ∧ s < n ∧ σ.dead s = false
  | .move s => σ.inbound s ≠ [] ∧ σ.dead s = false
  | .take s => σ.queue s ≠ []
  | .uplift s => σ.queue s ≠ []
  | .undefer s => σ.later s ≠ []
  | .destroy s => s < n ∧ σ.dead s = false ∧ σ.later s = []
  | .context s => s < n ∧ σ.dead s = false

theorem addRef_err {m : Nat} {σ : State} : addRef m σ ≠ .error .illegal := by
  simp only [addRef]; split <;> simp

theorem release_err {m : Nat} {σ : State} : release m σ ≠ .error .illegal := by
  simp only [release]; (repeat' split) <;> simp

theorem adopt_err {m : Nat} {b : Bool} {σ : State} : adopt m b σ ≠ .error .illegal := by
  simp only [adopt]; (repeat' split) <;> first | exact addRef_err | simp

theorem addAll_err {l : List Nat} : ∀ {σ : State}, addAll l σ ≠ .error .illegal := by
  induction l with
  | nil => intro σ; simp [addAll]
  | cons m l ih =>
    intro σ
    simp only [addAll]
    split
    · rename_i e he; intro hc; cases hc; exact addRef_err he
    · exact ih

theorem releaseAll_err {l : List Nat} : ∀ {σ : State}, releaseAll l σ ≠ .error .illegal := by
  induction l with
  | nil => intro σ; simp [releaseAll]
  | cons m l ih =>
    intro σ
    simp only [releaseAll]
    split
    · rename_i e he; intro hc; cases hc; exact release_err he
    · exact ih

/-- **C66** Everything that may be done with messages can be done, in every reachable state, and nothing else: no counter stands in the way. -/
theorem C66_goes_on {n : Nat} {ls : List Label} {σ : State} (h : run n State.init ls = .ok σ) (l : Label) :
    (∃ σ', step n σ l = .ok σ') ↔ Legal n σ l := by
  have hf := (((Inv.init n).run (ls := ls)).2 σ h).step l |>.1
  have hill : step n σ l = .error .illegal ↔ ¬ Legal n σ l := by
    cases l with
    | create ms =>
      simp only [step, Legal]
      split
      · rename_i hl
        refine ⟨fun hc => ?_, fun hc => absurd hl hc⟩
        revert hc
        split
        · rename_i e he; intro hc; cases hc; exact (addAll_err he).elim
        · intro hc; cases hc
      · rename_i hl; simp only [true_iff]; exact hl
    | copy m =>
      simp only [step, Legal]
      split
      · rename_i hl
        simp only [hl, not_true_eq_false, iff_false]
        split
        · rename_i e he; intro hc; cases hc; exact addRef_err he
        · simp
      · rename_i hl; simp only [true_iff]; exact hl
    | drop m =>
      simp only [step, Legal]
      split
      · rename_i hl; simp only [hl, not_true_eq_false, iff_false]; exact release_err
      · rename_i hl; simp only [true_iff]; exact hl
    | put m s => simp only [step, Legal]; split <;> rename_i hl <;> simp [hl]
    | enqueue m s => simp only [step, Legal]; split <;> rename_i hl <;> simp [hl]
    | defer m s => simp only [step, Legal]; split <;> rename_i hl <;> simp [hl]
    | move s =>
      simp only [step, Legal]
      split
      · rename_i hd
        split
        · rename_i hi; simp [hi]
        · rename_i m q hi
          simp only [hi, hd, ne_eq, reduceCtorEq, not_false_eq_true, and_self, not_true_eq_false, iff_false]
          split
          · rename_i e he; intro hc; cases hc; exact adopt_err he
          · simp
      · rename_i hd; simp [hd]
    | take s =>
      simp only [step, Legal]
      split
      · rename_i hi; simp [hi]
      · rename_i m q hi
        simp only [hi, ne_eq, reduceCtorEq, not_false_eq_true, not_true_eq_false, iff_false]
        split
        · rename_i e he; intro hc; cases hc; exact adopt_err he
        · simp
    | uplift s =>
      simp only [step, Legal]
      split
      · rename_i hi; simp [List.getLast?_eq_none_iff.1 hi]
      · rename_i m hi
        have : σ.queue s ≠ [] := by intro hc; simp [hc] at hi
        simp only [this, ne_eq, not_false_eq_true, not_true_eq_false, iff_false]
        split
        · rename_i e he; intro hc; cases hc; exact adopt_err he
        · simp
    | undefer s =>
      simp only [step, Legal]
      split
      · rename_i hi; simp [hi]
      · rename_i m q hi
        simp only [hi, ne_eq, reduceCtorEq, not_false_eq_true, not_true_eq_false, iff_false]
        split
        · rename_i e he; intro hc; cases hc; exact addRef_err he
        · exact release_err
    | destroy s =>
      simp only [step, Legal]
      split
      · rename_i hl
        simp only [hl, not_true_eq_false, iff_false, and_self]
        split
        · rename_i e he; intro hc; cases hc; exact releaseAll_err he
        · simp
      · rename_i hl; simp only [true_iff]; exact hl
    | context s =>
      simp only [step, Legal]
      split
      · rename_i hl; simp only [hl, not_true_eq_false, iff_false, and_self]; exact releaseAll_err
      · rename_i hl; simp only [true_iff]; exact hl
  cases hs : step n σ l with
  | ok σ' =>
    simp only [Except.ok.injEq, exists_eq', true_iff]
    by_cases hl : Legal n σ l
    · exact hl
    · have := hill.2 hl; rw [hs] at this; cases this
  | error e =>
    cases e with
    | freed => exact absurd hs hf
    | illegal => simpa using hill.1 hs

theorem release_queues {m : Nat} {σ σ' : State} (h : release m σ = .ok σ') : σ'.queue = σ.queue ∧ σ'.inbound = σ.inbound ∧ σ'.later = σ.later ∧ σ'.dead = σ.dead := by
  simp only [release] at h
  (repeat' split at h) <;> first | cases h; exact ⟨rfl, rfl, rfl, rfl⟩ | cases h

theorem releaseAll_queues {l : List Nat} : ∀ {σ σ' : State}, releaseAll l σ = .ok σ' →
    σ'.queue = σ.queue ∧ σ'.inbound = σ.inbound ∧ σ'.later = σ.later ∧ σ'.dead = σ.dead := by
  induction l with
  | nil => intro σ σ' h; simp only [releaseAll] at h; cases h; exact ⟨rfl, rfl, rfl, rfl⟩
  | cons m l ih =>
    intro σ σ' h
    simp only [releaseAll] at h
    split at h
    · cases h
    · rename_i σ₁ h1
      obtain ⟨a, b, c, d⟩ := ih h
      obtain ⟨a', b', c', d'⟩ := release_queues h1
      exact ⟨a.trans a', b.trans b', c.trans c', d.trans d'⟩

theorem addRef_all {m : Nat} {σ σ' : State} (h : addRef m σ = .ok σ') : σ' = { σ with count := σ'.count } := by
  simp only [addRef] at h; split at h <;> cases h; rfl

theorem addAll_all {l : List Nat} : ∀ {σ σ' : State}, addAll l σ = .ok σ' → σ' = { σ with count := σ'.count } := by
  induction l with
  | nil => intro σ σ' h; simp only [addAll] at h; cases h; rfl
  | cons m l ih =>
    intro σ σ' h
    simp only [addAll] at h
    split at h
    · cases h
    · rename_i σ₁ h1
      have := ih h; rw [this, addRef_all h1]

theorem adopt_all {m : Nat} {σ σ' : State} (h : adopt m false σ = .ok σ') : σ' = σ := by
  simp only [adopt] at h; split at h <;> cases h; rfl

/-- where the messages are: the queues and the inbound queues of all supervisors, the closures of wx -/
def places (σ : State) : (Nat → List Nat) × (Nat → List Nat) × (Nat → List Nat) := (σ.queue, σ.inbound, σ.later)

/-- what the step does with the queues, the variables and the members of messages -/
def Moved (σ σ' : State) : Label → Prop
  | .create ms => places σ' = places σ ∧ σ'.vars = σ.next :: σ.vars ∧ σ'.refs σ.next = ms ∧ ∀ x, x ≠ σ.next → σ'.refs x = σ.refs x
  | .copy m => places σ' = places σ ∧ σ'.vars = m :: σ.vars
  | .drop _ => places σ' = places σ
  | .put m s => places σ' = (upd σ.queue s (σ.queue s ++ [m]), σ.inbound, σ.later) ∧ σ'.vars = σ.vars.erase m
  | .enqueue m s => places σ' = (σ.queue, upd σ.inbound s (σ.inbound s ++ [m]), σ.later) ∧ σ'.vars = σ.vars.erase m
  | .defer m s => places σ' = (σ.queue, σ.inbound, upd σ.later s (σ.later s ++ [m])) ∧ σ'.vars = σ.vars.erase m
  | .move s => ∃ m q, σ.inbound s = m :: q ∧ places σ' = (upd σ.queue s (σ.queue s ++ [m]), upd σ.inbound s q, σ.later) ∧ σ'.vars = σ.vars
  | .take s => ∃ m q, σ.queue s = m :: q ∧ places σ' = (upd σ.queue s q, σ.inbound, σ.later) ∧ σ'.vars = m :: σ.vars
  | .uplift s => ∃ m q, σ.queue s = q ++ [m] ∧ places σ' = (upd σ.queue s (m :: q), σ.inbound, σ.later) ∧ σ'.vars = σ.vars
  | .undefer s => ∃ m q, σ.later s = m :: q ∧ places σ' = (upd σ.queue s (σ.queue s ++ [m]), σ.inbound, upd σ.later s q)
  | .destroy s => places σ' = (upd σ.queue s [], upd σ.inbound s [], σ.later) ∧ σ'.dead = upd σ.dead s true
  | .context s => places σ' = (σ.queue, upd σ.inbound s [], σ.later) ∧ σ'.dead = σ.dead

/-- **C66** Each message goes where it is put, in order, and no other queue is touched: what is put, moved or taken is the last or the first one of exactly
that queue; a new message has exactly the members given to it; destroying a supervisor empties its queues only. -/
theorem C66_moves {n : Nat} {σ σ' : State} {l : Label} (h : step n σ l = .ok σ') : Moved σ σ' l := by
  cases l with
  | create ms =>
    simp only [step] at h
    split at h
    · split at h
      · cases h
      · rename_i σ₁ h1
        cases h
        have e := addAll_all h1
        simp only [Moved]
        rw [e]
        exact ⟨rfl, rfl, by simp [upd], fun x hx => by simp [upd, hx]⟩
    · cases h
  | copy m =>
    simp only [step] at h
    split at h
    · split at h
      · cases h
      · rename_i σ₁ h1
        cases h
        have e := addRef_all h1
        simp only [Moved]; rw [e]; exact ⟨rfl, rfl⟩
    · cases h
  | drop m =>
    simp only [step] at h
    split at h
    · obtain ⟨a, b, c, -⟩ := release_queues h
      simp only [Moved, places, a, b, c]
    · cases h
  | put m s => simp only [step] at h; split at h <;> cases h; exact ⟨rfl, rfl⟩
  | enqueue m s => simp only [step] at h; split at h <;> cases h; exact ⟨rfl, rfl⟩
  | defer m s => simp only [step] at h; split at h <;> cases h; exact ⟨rfl, rfl⟩
  | move s =>
    simp only [step] at h
    split at h
    · split at h
      · cases h
      · rename_i m q hi
        split at h
        · cases h
        · rename_i σ₁ h1
          cases h
          have := adopt_all h1; subst this
          exact ⟨m, q, hi, rfl, rfl⟩
    · cases h
  | take s =>
    simp only [step] at h
    split at h
    · cases h
    · rename_i m q hi
      split at h
      · cases h
      · rename_i σ₁ h1
        cases h
        have := adopt_all h1; subst this
        exact ⟨m, q, hi, rfl, rfl⟩
  | uplift s =>
    simp only [step] at h
    split at h
    · cases h
    · rename_i m hi
      split at h
      · cases h
      · rename_i σ₁ h1
        cases h
        have := adopt_all h1; subst this
        refine ⟨m, (σ.queue s).dropLast, ?_, ?_, rfl⟩
        · have := List.getLast?_eq_some_iff.1 hi
          obtain ⟨ys, hys⟩ := this
          simp [hys]
        · simp only [places, Prod.mk.injEq, and_true]
          funext j; simp only [upd]; split <;> simp_all
  | undefer s =>
    simp only [step] at h
    split at h
    · cases h
    · rename_i m q hi
      split at h
      · cases h
      · rename_i σ₁ h1
        have e := addRef_all h1
        obtain ⟨a, b, c, -⟩ := release_queues h
        refine ⟨m, q, hi, ?_⟩
        simp only [places, a, b, c]
        rw [e]
  | destroy s =>
    simp only [step] at h
    split at h
    · split at h
      · cases h
      · rename_i σ₁ h1
        cases h
        obtain ⟨a, b, c, d⟩ := releaseAll_queues h1
        simp only [Moved, places, a, b, c, d, and_self]
    · cases h
  | context s =>
    simp only [step] at h
    split at h
    · obtain ⟨a, b, c, d⟩ := releaseAll_queues h
      simp only [Moved, places, a, b, c, d, and_self]
    · cases h

/-- a message in the inbound queue of supervisor 1, one in its queue, and a supervisor 0 that is destroyed with a message -/
example : (run 2 State.init [.create [], .create [0], .put 0 0, .enqueue 1 1, .create [], .put 2 1, .destroy 0, .move 1]).toOption.map
    (fun σ => (σ.queue 0, σ.queue 1, σ.inbound 1, σ.vars, σ.freed)) = some ([], [2, 1], [], [], []) := by decide

end Verif.MsgCount
