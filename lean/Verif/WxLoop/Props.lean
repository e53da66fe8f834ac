import Verif.WxLoop.Model

/-!
# C56 for wx
-/

namespace Verif.WxLoop

variable {σ σ' : State} {q : List Nat}

theorem outsiders_append (a b : List Item) : outsiders (a ++ b) = outsiders a ++ outsiders b := by
  induction a with
  | nil => rfl
  | cons x a ih => cases x <;> simp [outsiders, ih]

theorem carried_append (a b : List Job) : carried (a ++ b) = carried a ++ carried b := by
  induction a with
  | nil => rfl
  | cons x a ih => cases x <;> simp [carried, ih]

theorem outsiders_inside (l : List Nat) : outsiders (l.map .inside) = [] := by
  induction l with
  | nil => rfl
  | cons x l ih => simpa [outsiders] using ih

theorem outsiders_items (j : Job) (js : List Job) : outsiders j.items ++ carried js = carried (j :: js) := by
  cases j with
  | down m => cases m <;> simp [Job.items, outsiders, carried]
  | _ => simp [Job.items, outsiders, carried]

/-- everything there is, in the order of the pushes -/
def all (σ : State) : List Nat := outsiders σ.taken ++ outsiders σ.queue ++ carried σ.pending

theorem all_step {l : Label} (h : step σ l = some σ') : all σ' = all σ ++ pushed [l] := by
  cases l with
  | push m => simp only [step, Option.some.injEq] at h; subst h; simp [all, pushed, carried_append, carried]
  | down m => simp only [step, Option.some.injEq] at h; subst h; simp [all, pushed, carried_append, carried]
  | next =>
    simp only [step] at h
    split at h
    · cases h
    · split at h
      · cases h
      · rename_i j js hj
        simp only [Option.some.injEq] at h; subst h
        simp only [all, pushed, hj, ← outsiders_items, outsiders_append, List.append_assoc, List.append_nil]
  | timer ms =>
    simp only [step] at h
    split at h
    · cases h
    · simp only [Option.some.injEq] at h; subst h
      simp [all, pushed, outsiders_append, outsiders_inside]
  | dispatch ms =>
    simp only [step] at h
    split at h
    · split at h
      · cases h
      · rename_i x t hx
        simp only [Option.some.injEq] at h; subst h
        cases x <;> simp [all, pushed, outsiders_append, outsiders_inside, hx, outsiders]
    · cases h
  | done =>
    simp only [step] at h
    split at h
    · simp only [Option.some.injEq] at h; subst h; simp [all, pushed]
    · cases h

theorem pushed_cons (l : Label) (ls : List Label) : pushed (l :: ls) = pushed [l] ++ pushed ls := by
  cases l <;> simp [pushed]

theorem all_run {ls : List Label} : ∀ {σ : State}, run σ ls = some σ' → all σ' = all σ ++ pushed ls := by
  induction ls with
  | nil => intro σ h; simp only [run, Option.some.injEq] at h; subst h; simp [pushed]
  | cons l ls ih =>
    intro σ h
    simp only [run] at h
    cases h1 : step σ l with
    | none => rw [h1] at h; cases h
    | some σ1 => rw [h1] at h; rw [ih h, all_step h1, pushed_cons l ls, List.append_assoc]

/-- **C56, wx: every message once and in order.** The messages of the other threads are, in the order of the calls: those dispatched, those in the
queue of the locality, those that wait in the event loop. -/
theorem C56_wx_order {ls : List Label} (h : run (State.init q) ls = some σ) :
    outsiders σ.taken ++ outsiders σ.queue ++ carried σ.pending = pushed ls := by
  have := all_run h
  simpa [all, State.init, outsiders_inside, carried, outsiders] using this

theorem idle_run {ls : List Label} : ∀ {σ : State}, (σ.busy = true ∨ σ.queue = [] ∨ .go ∈ σ.pending) → run σ ls = some σ' →
    (σ'.busy = true ∨ σ'.queue = [] ∨ .go ∈ σ'.pending) := by
  induction ls with
  | nil => intro σ h0 h; simp only [run, Option.some.injEq] at h; subst h; exact h0
  | cons l ls ih =>
    intro σ h0 h
    simp only [run] at h
    cases h1 : step σ l with
    | none => rw [h1] at h; cases h
    | some σ1 =>
      rw [h1] at h
      refine ih ?_ h
      cases l <;> simp only [step] at h1 <;> grind

/-- **C56, wx: no lost wake-up.** When the loop runs none of our closures, nothing is left in the queue of the locality (or the closure made by
`start` has not run yet): every message of another thread that has not been dispatched is in a closure of the loop. -/
theorem C56_wx_no_lost_wakeup {ls : List Label} (h : run (State.init q) ls = some σ) (hb : σ.busy = false) :
    (σ.queue = [] ∨ .go ∈ σ.pending) ∧ (.go ∉ σ.pending → outsiders σ.taken ++ carried σ.pending = pushed ls) := by
  have h0 := idle_run (by right; right; simp [State.init]) h
  rw [hb] at h0
  have h1 : σ.queue = [] ∨ .go ∈ σ.pending := by simpa using h0
  refine ⟨h1, fun hg => ?_⟩
  have h2 := C56_wx_order h
  rw [h1.resolve_right hg] at h2
  simpa [outsiders] using h2

/-- **C56, wx: waiting messages are taken.** When the closure of a message gets its turn, the message is put into the queue and the loop goes on to
process it. -/
theorem C56_wx_taken {m : Nat} {js : List Job} (hb : σ.busy = false) (hp : σ.pending = .put m :: js) :
    ∃ σ', step σ .next = some σ' ∧ σ'.busy = true ∧ σ'.queue = σ.queue ++ [.outside m] ∧ σ'.pending = js := by
  simp [step, hb, hp, Job.items]

/-- two threads, a timer between; the second message is dispatched after what the first one causes -/
example : (run (State.init [1]) [.push 5, .next, .dispatch [], .done, .timer [2], .push 6, .dispatch [3], .dispatch [], .done, .next, .dispatch [],
    .done, .next, .dispatch [4], .dispatch []]).map (fun σ => (σ.busy, σ.taken, σ.pending)) =
    some (true, [.inside 1, .inside 2, .inside 3, .outside 5, .outside 6, .inside 4], []) := by decide

end Verif.WxLoop
