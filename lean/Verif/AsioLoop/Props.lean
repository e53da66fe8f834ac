import Verif.AsioLoop.Model
/-!
# C56 (boost.asio): no message from another thread is forgotten
-/

namespace Verif.AsioLoop

variable {σ σ' : State} {q : List Nat}

/-- the messages the threads have pushed, oldest first -/
def pushed : List Label → List Nat
  | [] => []
  | .push _ m :: ls => m :: pushed ls
  | _ :: ls => pushed ls

/-- those that came from outside -/
def outsiders : List Item → List Nat
  | [] => []
  | .outside m :: l => m :: outsiders l
  | .inside _ :: l => outsiders l

structure Inv (σ : State) : Prop where
  idle : σ.pc = .idle → σ.queue = [] ∨ .wake ∈ σ.strand
  wake : σ.inbound ≠ [] → σ.pc = .moving ∨ .wake ∈ σ.strand ∨ ∃ i, σ.threads i = true

theorem inv_init : Inv (State.init q) := ⟨fun _ => .inr (by simp [State.init]), fun h => absurd rfl h⟩

theorem Inv.step (h : Inv σ) {l : Label} (e : step σ l = some σ') : Inv σ' := by
  obtain ⟨h1, h2⟩ := h
  cases l with
  | push i m =>
    simp only [AsioLoop.step] at e
    split at e <;> cases e
    exact ⟨h1, fun _ => .inr (.inr ⟨i, by simp [upd]⟩)⟩
  | defer i =>
    simp only [AsioLoop.step] at e
    split at e <;> cases e
    exact ⟨fun _ => .inr (by simp), fun _ => .inr (.inl (by simp))⟩
  | post j =>
    simp only [AsioLoop.step] at e
    cases e
    refine ⟨fun h => (h1 h).imp id (List.mem_append_left _), fun h => ?_⟩
    rcases h2 h with h | h | h
    · exact .inl h
    · exact .inr (.inl (List.mem_append_left _ h))
    · exact .inr (.inr h)
  | begin msgs =>
    simp only [AsioLoop.step] at e
    split at e <;> cases e
    · exact ⟨by simp, fun _ => .inl rfl⟩
    · exact ⟨by simp, fun _ => .inl rfl⟩
    · rename_i hp hs
      refine ⟨by simp, fun h => ?_⟩
      rcases h2 h with h | h | h
      · rw [hp] at h; cases h
      · rw [hs] at h; exact .inr (.inl (by simpa using h))
      · exact .inr (.inr h)
  | pop =>
    simp only [AsioLoop.step] at e
    split at e
    · rename_i m l hi
      have h2 := h2 (by simp [hi])
      split at e <;> cases e
      all_goals
        rename_i hp
        exact ⟨by simp [hp], fun _ => h2⟩
    · rename_i hi
      split at e <;> cases e
      · refine ⟨?_, by simp [hi]⟩
        simp only; split
        · intro _; left; assumption
        · simp
      · exact ⟨h1, h2⟩
  | leave =>
    simp only [AsioLoop.step] at e
    split at e <;> cases e
    rename_i hp
    refine ⟨?_, fun h => ?_⟩
    · simp only; split
      · intro _; left; assumption
      · simp
    · rcases h2 h with h | h
      · rw [hp] at h; cases h
      · exact .inr h
  | dispatch msgs =>
    simp only [AsioLoop.step] at e
    split at e <;> cases e
    rename_i hp hq
    exact ⟨by simp [hp], h2⟩
  | «return» poll =>
    simp only [AsioLoop.step] at e
    split at e <;> cases e
    rename_i hp hq
    refine ⟨fun _ => .inl hq, fun h => ?_⟩
    rcases h2 h with h | h
    · rw [hp] at h; cases h
    · exact .inr h

theorem Inv.run {ls : List Label} : ∀ {σ : State}, Inv σ → AsioLoop.run σ ls = some σ' → Inv σ' := by
  induction ls with
  | nil => intro σ h e; simp only [AsioLoop.run, Option.some.injEq] at e; exact e ▸ h
  | cons l ls ih =>
    intro σ h e
    simp only [AsioLoop.run] at e
    split at e
    · cases e
    · rename_i h1; exact ih (h.step h1) e

/-- **C56, boost.asio: no lost wake-up.** In every interleaving: when the strand runs no closure, nothing is left in the queue of the locality (or
the closure made by `start` has not run yet), and if a message is in the inbound queue, the strand has a closure that takes it, or a thread is about to defer one. -/
theorem C56_asio_no_lost_wakeup {ls : List Label} (h : run (State.init q) ls = some σ) (hp : σ.pc = .idle) :
    (σ.queue = [] ∨ .wake ∈ σ.strand) ∧ (σ.inbound ≠ [] → .wake ∈ σ.strand ∨ ∃ i, σ.threads i = true) := by
  have hi := inv_init.run h
  refine ⟨hi.idle hp, fun h => ?_⟩
  rcases hi.wake h with h | h
  · rw [hp] at h; cases h
  · exact h

/-- **C56, boost.asio: every message once and in order.** -/
theorem C56_asio_order {ls : List Label} (h : run (State.init q) ls = some σ) :
    outsiders σ.taken ++ outsiders σ.queue ++ σ.inbound = pushed ls := by
  have app : ∀ (a b : List Item), outsiders (a ++ b) = outsiders a ++ outsiders b := by
    intro a b
    induction a with
    | nil => rfl
    | cons x a ih => cases x <;> simp [outsiders, ih]
  have ins : ∀ l : List Nat, outsiders (l.map .inside) = [] := by
    intro l; induction l with
    | nil => rfl
    | cons x l ih => simpa [outsiders] using ih
  have key : ∀ (ls : List Label) (σ σ' : State), run σ ls = some σ' →
      outsiders σ'.taken ++ outsiders σ'.queue ++ σ'.inbound = (outsiders σ.taken ++ outsiders σ.queue ++ σ.inbound) ++ pushed ls := by
    intro ls
    induction ls with
    | nil => intro σ σ' e; simp only [AsioLoop.run, Option.some.injEq] at e; subst e; simp [pushed]
    | cons l ls ih =>
      intro σ σ' e
      simp only [AsioLoop.run] at e
      split at e
      · cases e
      · rename_i τ h1
        rw [ih τ _ e]
        clear e ih
        cases l with
        | push i m =>
          simp only [step] at h1
          split at h1 <;> cases h1
          simp [pushed]
        | dispatch msgs =>
          simp only [step] at h1
          split at h1 <;> cases h1
          rename_i x q hp hq
          cases x <;> simp [pushed, hq, outsiders, app, ins]
        | pop =>
          simp only [step] at h1
          split at h1
          · rename_i x l hi
            split at h1 <;> cases h1 <;> simp [pushed, hi, app, outsiders]
          · rename_i hi
            split at h1 <;> cases h1 <;> simp [pushed, hi]
        | begin msgs =>
          simp only [step] at h1
          split at h1 <;> cases h1 <;> simp [pushed, app, ins]
        | _ =>
          simp only [step] at h1
          repeat' split at h1
          all_goals first | cases h1; done | (cases h1; simp [pushed])
  have := key ls (State.init q) _ h
  simpa [State.init, outsiders, ins] using this

theorem run_append {ls ls' : List Label} : ∀ {σ : State}, run σ (ls ++ ls') = (run σ ls).bind (fun σ' => run σ' ls') := by
  induction ls with
  | nil => intro σ; rfl
  | cons l ls ih =>
    intro σ
    simp only [List.cons_append, run]
    split
    · rfl
    · exact ih

theorem pops (n : Nat) : ∀ {σ : State}, σ.pc = .moving → σ.inbound.length = n →
    run σ (List.replicate n .pop) = some { σ with inbound := [], queue := σ.queue ++ σ.inbound.map .outside } := by
  induction n with
  | zero =>
    intro σ _ h
    rw [List.length_eq_zero_iff] at h
    simp [run, h]; rw [← h]
  | succ n ih =>
    intro σ hp h
    cases hi : σ.inbound with
    | nil => rw [hi] at h; cases h
    | cons x l =>
      rw [hi] at h
      simp only [List.replicate_succ, run, step, hi, hp]
      rw [ih (by simp) (by simpa using h)]
      simp [List.append_assoc]

/-- **C56, boost.asio: waiting messages are taken.** The closure made by `enqueue`, when its turn has come, moves all waiting messages, in their order, to
the queue and goes on to process them. -/
theorem C56_asio_taken (hp : σ.pc = .idle) {js : List Job}
    (hs : σ.strand = .wake :: js)
    (hx : σ.inbound ≠ []) {msgs : List Nat} :
    ∃ σ', run σ (.begin msgs :: List.replicate (σ.inbound.length + 1) .pop) = some σ' ∧
      σ'.pc = .proc false ∧ σ'.inbound = [] ∧ σ'.queue = σ.queue ++ σ.inbound.map .outside ∧ σ'.strand = js := by
  rw [List.replicate_succ', ← List.cons_append, run_append]
  simp only [run, step, hp, hs]
  rw [pops σ.inbound.length (σ := { σ with pc := .moving, strand := js }) rfl rfl]
  simp [run, step, hx, Option.bind]

/-- two threads; the first closure takes both messages, the second finds nothing -/
example : ((run (State.init []) [.push 1 5, .push 2 6, .defer 2, .begin [], .pop, .pop, .pop, .dispatch [8], .dispatch [], .dispatch [], .return false, .defer 1,
    .begin [], .pop, .begin [], .pop]).map (fun σ => decide (σ.pc = .idle ∧ σ.inbound = [] ∧ σ.taken = [.outside 5, .outside 6, .inside 8]))) = some true := by decide

/-- a forwarded call does not take messages of other threads, they have a closure of their own -/
example : ((run (State.init []) [.begin [], .pop, .post .call, .push 1 5, .defer 1, .begin [7], .dispatch [], .return true]).map
    (fun σ => decide (σ.pc = .idle ∧ σ.inbound = [5] ∧ σ.strand = [.wake] ∧ σ.taken = [.inside 7]))) = some true := by decide

end Verif.AsioLoop
