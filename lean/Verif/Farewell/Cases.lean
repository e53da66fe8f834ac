import Verif.Farewell.Props
/-!
# Cases of C79
-/

namespace Verif.Farewell
open Verif

def same : Nat → Nat := fun _ => 0

def ok? (r : Except Err State) (p : State → Bool) : Bool :=
  match r with
  | .ok s => p s
  | .error _ => false

theorem of_ok {r : Except Err State} {p : State → Bool} (h : ok? r p = true) : ∃ s, r = .ok s ∧ p s = true := by
  match r, h with
  | .ok s, h => exact ⟨s, rfl, h⟩

/-- two subscribers from different localities; one leaves and comes back before the shutdown, the other leaves in time -/
example : ok? (run (fun x => x) State.init
    [.sub 1, .sub 2, .arrive 2, .arrive 1, .take, .take, .leave 1, .sub 1, .arrive 1, .arrive 1, .take, .take, .sendUser 3 9, .arrive 3, .take,
     .shutdown, .leave 2, .arrive 2, .take, .deactivate, .leave 1, .arrive 1, .take, .take, .take, .take, .finish])
    (fun s => decide (s.st = .shutDown ∧ s.table = [1] ∧ s.log.count (.confirmed 1) = 2 ∧ .passed 9 1 ∈ s.log ∧ .passed 9 2 ∈ s.log ∧ .forgotten 1 ∈ s.log)) = true := by
  decide

/-- all leave in time: the plugin is deactivated when the last one leaves, nothing is left -/
example : ok? (run same State.init [.sub 1, .arrive 0, .take, .shutdown, .leave 1, .arrive 0, .take, .take, .take, .take, .deactivate, .finish])
    (fun s => decide (s.st = .shutDown ∧ s.table = [] ∧ .emptied ∈ s.log ∧ s.own = [])) = true := by
  decide

/-- the states of `C79_passed` and `C79_called`: a message for the address and a call are in front of the queue -/
example : ok? (run same State.init [.sub 1, .create 7, .sendUser 0 9, .sendCall 0 7, .arrive 0, .take, .arrive 0])
    (fun s => decide (s.queue = [.user 9] ∧ s.log.count (.removed 1) < s.log.count (.confirmed 1))) = true := by decide
example : ok? (run same State.init [.create 7, .sub 1, .sendCall 0 7, .arrive 0, .take, .arrive 0, .shutdown])
    (fun s => decide (s.queue = [.call 7] ∧ 7 ∈ s.kids ∧ .emptied ∉ s.log)) = true := by decide

/-- **C79**, counterexample. The last foreign subscriber leaves while the supervisor waits for its children: `foreigners_support.cpp:91-93`
deactivates the plugin at once. From now on messages for the children from addresses of other localities are not delivered any more, although
the children are there and the other plugins are not deactivated; calls for the same child were executed before. -/
theorem C79_early_counterexample :
    ∃ ops s, run same State.init ops = .ok s ∧ 7 ∈ s.kids ∧ .lost 7 ∈ s.log ∧ .called 7 ∈ s.log ∧ s.st = .shuttingDown ∧ .deactivated ∉ s.log ∧
      s.own = [] := by
  obtain ⟨s, h1, h2⟩ := of_ok (r := run same State.init
      [.create 7, .sub 1, .arrive 0, .take, .shutdown, .sendCall 0 7, .arrive 0, .take, .leave 1, .arrive 0, .take, .take, .take, .take, .sendCall 0 7, .arrive 0, .take])
    (p := fun s => decide (7 ∈ s.kids ∧ .lost 7 ∈ s.log ∧ .called 7 ∈ s.log ∧ s.st = .shuttingDown ∧ .deactivated ∉ s.log ∧ s.own = [])) (by decide)
  exact ⟨_, s, h1, by simpa using h2⟩

/-- **C79**, counterexample. Somebody is subscribed when the supervisor shuts down and leaves later: the supervisor does not hear it. The
subscription, and with it the handler and the actor it belongs to (`subscription_point.h:50-60`), stays in the table whatever happens, and
messages are still passed to the actor. -/
theorem C79_left_over_counterexample :
    ∃ ops s, run same State.init ops = .ok s ∧ s.st = .shutDown ∧ s.sub 1 = false ∧ s.queue = [] ∧ s.chan 0 = [] ∧ .passed 9 1 ∈ s.log ∧
      ∀ ops' s', run same s ops' = .ok s' → 1 ∈ s'.table := by
  obtain ⟨s, h1, h2⟩ := of_ok (r := run same State.init
      [.sub 1, .arrive 0, .take, .shutdown, .deactivate, .take, .take, .take, .finish, .leave 1, .arrive 0, .take, .sendUser 0 9, .arrive 0, .take])
    (p := fun s => decide (s.st = .shutDown ∧ s.sub 1 = false ∧ s.queue = [] ∧ s.chan 0 = [] ∧ .passed 9 1 ∈ s.log ∧ 1 ∈ s.table)) (by decide)
  have h3 := of_decide_eq_true h2
  refine ⟨_, s, h1, h3.1, h3.2.1, h3.2.2.1, h3.2.2.2.1, h3.2.2.2.2.1, ?_⟩
  intro ops' s' h'
  rw [(C79_for_ever same _ ops' s s' h1 h' (Or.inl h3.1)).1]
  exact h3.2.2.2.2.2

/-- **C79**, counterexample. Somebody subscribes while the supervisor is shutting down, but has children: there is no answer, neither a
confirmation nor a refusal, whatever happens. -/
theorem C79_unanswered_counterexample :
    ∃ ops s, run same State.init ops = .ok s ∧ s.st = .shuttingDown ∧ s.kids ≠ [] ∧ s.sub 2 = true ∧ wanting same s 2 = 0 ∧
      ∀ ops' s', run same s ops' = .ok s' → .confirmed 2 ∉ s'.log := by
  obtain ⟨s, h1, h2⟩ := of_ok (r := run same State.init
      [.create 7, .sub 1, .arrive 0, .take, .shutdown, .leave 1, .arrive 0, .take, .sub 2, .arrive 0, .take, .take, .take, .take])
    (p := fun s => decide (s.st = .shuttingDown ∧ s.kids ≠ [] ∧ s.sub 2 = true ∧ wanting same s 2 = 0 ∧ s.active = false ∧ s.table.count 2 = 0 ∧ .asked 2 ∈ s.log ∧ .left 2 ∉ s.log)) (by decide)
  have h3 := of_decide_eq_true h2
  refine ⟨_, s, h1, h3.1, h3.2.1, h3.2.2.1, h3.2.2.2.1, ?_⟩
  intro ops' s' h'
  have h4 := (C79_for_ever same _ ops' s s' h1 h' (Or.inr h3.2.2.2.2.1)).2 2
  rw [h3.2.2.2.2.2.1] at h4
  -- nothing is removed that was not in the table
  obtain ⟨i, c⟩ := reach h1
  have hrem : ∀ (ops' : List Op) (s : State), Inv same s → Cnt same s → s.own = [] → .removed 2 ∉ s.log → ∀ s', run same s ops' = .ok s' → .removed 2 ∉ s'.log := by
    intro ops'
    induction ops' with
    | nil => intro s _ _ _ hr s' e; cases e; exact hr
    | cons op ops' ih =>
      intro s i c ho hr s' e
      rcases step_ok i c op with q | ⟨s1, q, i1, c1, o1⟩
      · simp [run, q] at e
      · simp only [run, q] at e
        refine ih s1 i1 c1 (o1 ho).1 ?_ s' e
        have hu : H.unsub ∉ s.own := by rw [ho]; simp
        have hx : H.ext ∉ s.own := by rw [ho]; simp
        have hcl : H.call ∉ s.own := by rw [ho]; simp
        have hof : ∀ h, h ∉ s.own := by rw [ho]; simp
        cases op with
        | take =>
          match hq : s.queue with
          | [] => simp [step, take, hq] at q; subst q; exact hr
          | .ext x :: rest => simp [step, take, hq, onExt, hx] at q; subst q; simpa using hr
          | .commit x :: rest => simp [step, take, hq, onCommit, hu] at q; subst q; simpa using hr
          | .call x :: rest =>
            simp only [step, take, hq, onCall] at q
            rw [if_neg hcl] at q
            cases q
            split
            · simpa using hr
            · exact hr
          | .off x :: rest =>
            simp only [step, take, hq, onOff] at q
            rw [if_neg (hof x)] at q
            cases q
            exact hr
          | .user u :: rest =>
            simp only [step, take, hq] at q
            cases q
            obtain ⟨g, e1, e2⟩ := passAll_spec u s.table { s with queue := rest }
            rw [e1]
            intro z
            rcases List.mem_append.mp z with z | z
            · obtain ⟨_, z⟩ := e2 _ z; cases z
            · exact hr z
        | deactivate =>
          simp only [step] at q
          split at q
          · cases q
            have ha : s.active = false := by
              cases i.ph with
              | on a _ _ _ => rw [ho] at a; simp [full] at a
              | going a _ _ _ _ _ _ _ => rw [ho] at a; simp [full] at a
              | two a _ _ _ _ _ => rw [ho] at a; simp at a
              | one a _ _ _ _ _ => rw [ho] at a; simp at a
              | off _ _ b _ _ => exact b
            simpa [deactivate, ha] using hr
          · cases q
        | arrive l =>
          match hl : s.chan l with
          | [] => simp [step, hl] at q; subst q; exact hr
          | m :: rest => simp [step, hl] at q; subst q; exact hr
        | _ =>
          simp only [step] at q
          repeat' split at q
          all_goals first
            | (cases q; done)
            | (cases q; simpa using hr)
  have ho : s.own = [] := by
    cases i.ph with
    | on _ _ b _ => rw [h3.2.2.2.2.1] at b; cases b
    | going _ _ b _ _ _ _ _ => rw [h3.2.2.2.2.1] at b; cases b
    | two _ _ b _ _ _ => rw [h3.2.2.2.2.1] at b; cases b
    | one _ _ b _ _ _ => rw [h3.2.2.2.2.1] at b; cases b
    | off a _ _ _ _ => exact a
  have hr : .removed 2 ∉ s.log := by
    have a2 := c.cl 2
    rw [List.count_eq_zero.mpr h3.2.2.2.2.2.2.2] at a2
    exact List.count_eq_zero.mp (by omega)
  have h5 := hrem ops' s i c ho hr s' h'
  rw [List.count_eq_zero.mpr h5] at h4
  exact List.count_eq_zero.mp (by omega)

/-- `C79_emptied`: the first of two foreign subscribers leaves, then the second -/
example : ok? (run same State.init [.sub 1, .sub 2, .arrive 0, .arrive 0, .take, .take, .shutdown, .leave 1, .arrive 0, .take, .leave 2, .arrive 0])
    (fun s => decide (s.st = .shuttingDown ∧ s.queue = [.commit 2] ∧ .emptied ∉ s.log)) = true := by decide
example : ok? (run same State.init [.sub 1, .sub 2, .arrive 0, .arrive 0, .take, .take, .shutdown, .leave 1, .arrive 0, .take, .leave 2, .arrive 0, .take])
    (fun s => decide (.emptied ∈ s.log)) = true := by decide

end Verif.Farewell
