import Verif.ThreadTimers.Lemmas

/-!
# Properties C15 and C16: the timers of the thread backend

Everything holds for handlers and callbacks that do whatever they like (take time, start and cancel
timers), with one restriction on blocking io handlers: the callbacks that are called while such a
handler runs leave the timers alone.  Without it both properties fail, see the counterexamples at the
end.  A blocking handler itself may start and cancel timers; if it cancels one that has expired, the
library fails (`notFound`), and this is the only way it can.
-/

namespace Verif.ThreadTimers

/-- if there are blocking handlers, then the callbacks that run meanwhile leave the timers alone -/
def CalmIo (env : Env) (ops : List Op) : Prop :=
  (∃ l, Op.io l ∈ ops) → ∀ log, ∀ a ∈ env true log, ∃ d, a = Act.work d

theorem inv_init (c : Int) : Inv none (State.init c) := by
  refine ⟨?_, ?_, ?_, ?_, ?_, ?_, ?_, ?_, ?_, ?_, ?_, ?_, ?_, ?_, ?_, ?_, ?_, ?_⟩ <;>
    simp [State.init, due, callCount, firedIds, loopTime, GoodLog]

theorem inv_int {ex : Option Nat} {s : State} (hi : Inv ex s) (b : Bool) : Inv ex { s with intercepting := b } :=
  ⟨hi.sorted, hi.mapNodup, hi.nodesMap, hi.stackSub, hi.stackNodup, hi.fresh, hi.nodeDue, hi.c1, hi.c2, hi.c3, hi.c4,
   hi.nowEq, hi.nowClock, hi.firedDue, hi.firedSorted, hi.firedBefore, hi.pend, hi.good⟩

/-- between two operations of the loop -/
structure Rest (s : State) : Prop where
  inv : Inv none s
  stack : s.stack = []
  int : s.intercepting = false

theorem step_rest (n : Nat) (env : Env) (op : Op) (h : ∀ l, op = .io l → Quiet env) (s : State) (hr : Rest s) :
    match stepOp n env s op with
    | .ok s' => Rest s'
    | .error e => Bad e := by
  obtain ⟨hi, hst, hint⟩ := hr
  have hq0 : QuietInt env s := fun hx => by rw [hint] at hx; simp at hx
  cases op with
  | handler l =>
    have := exec_ok n env (.acts l) s ⟨hq0, hi, fun _ => .inl hst⟩
    simp only [stepOp]
    revert this
    cases exec n env (.acts l) s with
    | error e => exact fun h => h
    | ok s' => rintro ⟨h1, h2⟩; exact ⟨h1, h2.stack.trans hst, h2.int.trans hint⟩
  | io l =>
    have hq := h l rfl
    simp only [stepOp]
    have h1 := exec_ok n env .update { s with intercepting := true } ⟨fun _ => hq, inv_int hi true, hst⟩
    revert h1
    cases exec n env .update { s with intercepting := true } with
    | error e => exact fun h => h
    | ok s1 =>
      rintro ⟨a1, a2, _, _⟩
      simp only
      have hs1 : s1.stack = [] := a2.stack.trans hst
      have h2 := exec_ok n env (.acts l) s1 ⟨fun _ => hq, a1, fun _ => .inl hs1⟩
      revert h2
      cases exec n env (.acts l) s1 with
      | error e => exact fun h => h
      | ok s2 =>
        rintro ⟨b1, b2⟩
        simp only
        have h3 := exec_ok n env .update { s2 with intercepting := false }
          ⟨fun _ => hq, inv_int b1 false, b2.stack.trans hs1⟩
        revert h3
        cases exec n env .update { s2 with intercepting := false } with
        | error e => exact fun h => h
        | ok s3 =>
          rintro ⟨c1, c2, _, _⟩
          exact ⟨c1, c2.stack.trans (b2.stack.trans hs1), c2.int⟩
  | update =>
    have := exec_ok n env .update s ⟨hq0, hi, hst⟩
    simp only [stepOp]
    revert this
    cases exec n env .update s with
    | error e => exact fun h => h
    | ok s' => rintro ⟨h1, h2, _⟩; exact ⟨h1, h2.stack.trans hst, h2.int.trans hint⟩

theorem run_rest (n : Nat) (env : Env) (ops : List Op) (h : CalmIo env ops) (s : State) (hr : Rest s) :
    match run n env s ops with
    | .ok s' => Rest s'
    | .error e => Bad e := by
  induction ops generalizing s with
  | nil => simp only [run]; exact hr
  | cons op ops ih =>
    have h' : CalmIo env ops := fun ⟨l, hl⟩ => h ⟨l, by simp [hl]⟩
    have hs := step_rest n env op (fun l hl => h ⟨l, by simp [hl]⟩) s hr
    simp only [run]
    revert hs
    cases stepOp n env s op with
    | error e => exact fun h => h
    | ok s' => exact fun h1 => ih h' s' h1

theorem run_inv (n : Nat) (env : Env) (ops : List Op) (h : CalmIo env ops) (c : Int) :
    match run n env (State.init c) ops with
    | .ok s' => Inv none s' ∧ s'.stack = []
    | .error e => Bad e := by
  have := run_rest n env ops h (State.init c) ⟨inv_init c, rfl, rfl⟩
  revert this
  cases run n env (State.init c) ops with
  | error e => exact fun h => h
  | ok s' => exact fun h => ⟨h.inv, h.stack⟩

theorem good_suffix {a b : List Ev} (h : GoodLog (a ++ b)) : GoodLog b := by
  induction a with
  | nil => exact h
  | cons e a ih =>
    apply ih
    cases e <;> simp only [List.cons_append, GoodLog] at h
    · exact h
    · exact h.2.2
    · exact h.2
    · exact h.2.2.2

theorem callCount_append (id : Nat) (a b : List Ev) : callCount id (a ++ b) = callCount id a + callCount id b := by
  induction a with
  | nil => simp [callCount]
  | cons e a ih => cases e <;> simp only [List.cons_append, callCount, ih] <;> omega

theorem due_some_of_started {log : List Ev} {id iv : Nat} {c : Int} (h : Ev.started id iv c ∈ log) :
    ∃ d, due id log = some d := by
  induction log with
  | nil => simp at h
  | cons e r ih =>
    simp only [List.mem_cons] at h
    rcases h with rfl | h
    · exact ⟨loopTime r + iv, by simp only [due, if_true]⟩
    · obtain ⟨d, hd⟩ := ih h
      cases e with
      | started id' iv' c' =>
        by_cases he : id' = id
        · exact ⟨loopTime r + iv', by simp [due, he]⟩
        · exact ⟨d, by simp [due, he, hd]⟩
      | _ => exact ⟨d, hd⟩

/-- **C16 (partial: while a blocking io handler runs, callbacks leave the timers alone).** Whatever
handlers and callbacks do, nothing goes wrong inside the library (the only failures are the user
cancelling something that is not pending, or `C16_only_failure_partial`), and at any time between two operations of the loop each timer that was started is either still pending and its
callback was not invoked, or it is not pending any more and its callback was invoked exactly once;
timers that were not started are never called. -/
theorem C16_callback_exactly_once_partial (n : Nat) (env : Env) (ops : List Op) (hio : CalmIo env ops) (c : Int) :
    run n env (State.init c) ops ≠ .error .fault ∧
    ∀ s, run n env (State.init c) ops = .ok s → ∀ id,
      (Started s.log id → callCount id s.log = if id ∈ s.map then 0 else 1) ∧
      (¬ Started s.log id → callCount id s.log = 0) := by
  have := run_inv n env ops hio c
  constructor
  · intro he; rw [he] at this; exact this.1 rfl
  · intro s hs id
    rw [hs] at this
    obtain ⟨hi, hst⟩ := this
    constructor
    · rintro ⟨iv, cl, h⟩
      split
      · rename_i hm; exact hi.c1 id hm (by simp [hst])
      · rename_i hm; exact hi.c3 id (due_some_of_started h) hm
    · intro hn
      apply hi.c4
      cases hd : due id s.log with
      | none => rfl
      | some d =>
        exfalso; apply hn
        have : ∀ log : List Ev, due id log = some d → Started log id := by
          intro log
          induction log with
          | nil => simp [due]
          | cons e r ih =>
            intro h
            cases e with
            | started id' iv' c' =>
              by_cases he : id' = id
              · subst he; exact ⟨iv', c', by simp⟩
              · rw [due_started_ne he] at h
                obtain ⟨a, b, hab⟩ := ih h; exact ⟨a, b, by simp [hab]⟩
            | updated _ => obtain ⟨a, b, hab⟩ := ih h; exact ⟨a, b, by simp [hab]⟩
            | cancelReq _ => obtain ⟨a, b, hab⟩ := ih h; exact ⟨a, b, by simp [hab]⟩
            | called _ _ _ => obtain ⟨a, b, hab⟩ := ih h; exact ⟨a, b, by simp [hab]⟩
        exact this s.log hd

/-- **C16 (partial: as above), how it is called.** A callback is invoked with
`cancelled = true` exactly for the timers the user cancelled, and with `false` for the others. -/
theorem C16_cancelled_iff_requested_partial (n : Nat) (env : Env) (ops : List Op) (hio : CalmIo env ops) (c : Int) (s : State)
    (hs : run n env (State.init c) ops = .ok s) (id : Nat) (b : Bool) (clk : Int) (h : Ev.called id b clk ∈ s.log) :
    (b = true ↔ Ev.cancelReq id ∈ s.log) := by
  have := run_inv n env ops hio c
  rw [hs] at this
  have hg := this.1.good
  obtain ⟨a, r, hl⟩ := List.append_of_mem h
  rw [hl] at hg ⊢
  have hgr := good_suffix hg
  simp only [GoodLog] at hgr
  constructor
  · intro hb; have := hgr.2.2.1 hb; simp [this]
  · intro hc
    cases b with
    | true => rfl
    | false =>
      exfalso
      have hnr := (hgr.2.1 rfl).2
      simp only [List.mem_append, List.mem_cons, reduceCtorEq, false_or] at hc
      rcases hc with hc | hc
      · obtain ⟨a1, a2, ha⟩ := List.append_of_mem hc
        rw [ha, List.append_assoc] at hg
        have h2 := good_suffix hg
        simp only [List.cons_append, GoodLog] at h2
        have h3 := h2.1
        rw [callCount_append] at h3
        simp only [callCount, if_true] at h3
        omega
      · exact hnr hc

/-- **C16 (partial: as above), timers do fire.** After the loop has updated its time, no timer is pending whose time has
come. -/
theorem C16_update_fires_all_partial (n : Nat) (env : Env) (ops : List Op) (hio : CalmIo env ops) (c : Int) (s s' : State)
    (hs : run n env (State.init c) ops = .ok s) (h : stepOp n env s .update = .ok s') (id : Nat) (hm : id ∈ s'.map)
    (d : Int) (hd : due id s'.log = some d) : s.clock ≤ d := by
  have hr := run_rest n env ops hio (State.init c) ⟨inv_init c, rfl, rfl⟩
  rw [hs] at hr
  have := exec_ok n env .update s ⟨fun hx => by rw [hr.int] at hx; simp at hx, hr.inv, hr.stack⟩
  simp only [stepOp] at h
  rw [h] at this
  obtain ⟨h1, h2, h3, h4⟩ := this
  obtain ⟨d', hd'⟩ := (h1.nodesMap id).1 hm
  have := h1.nodeDue id d' hd'
  rw [hd] at this
  simp only [Option.some.injEq] at this
  subst this
  have := h4 _ hd'
  simp only at this
  omega

/-- **C16 (partial: as above), timers do fire, blocking handlers.** When a blocking handler is done, no
timer is pending whose time came while it ran. -/
theorem C16_io_fires_all_partial (n : Nat) (env : Env) (ops : List Op) (l : List Act) (hio : CalmIo env (.io l :: ops))
    (c : Int) (s s' : State)
    (hs : run n env (State.init c) ops = .ok s) (h : stepOp n env s (.io l) = .ok s') :
    ∃ s1 s2, exec n env .update { s with intercepting := true } = .ok s1 ∧ exec n env (.acts l) s1 = .ok s2 ∧
      ∀ id ∈ s'.map, ∀ d, due id s'.log = some d → s2.clock ≤ d := by
  have hq : Quiet env := hio ⟨l, by simp⟩
  have hr := run_rest n env ops (fun _ => hq) (State.init c) ⟨inv_init c, rfl, rfl⟩
  rw [hs] at hr
  have h1 := exec_ok n env .update { s with intercepting := true } ⟨fun _ => hq, inv_int hr.inv true, hr.stack⟩
  simp only [stepOp] at h
  revert h h1
  cases exec n env .update { s with intercepting := true } with
  | error e => intro h; simp at h
  | ok s1 =>
    rintro h ⟨a1, a2, _, _⟩
    have hs1 : s1.stack = [] := a2.stack.trans hr.stack
    have h2 := exec_ok n env (.acts l) s1 ⟨fun _ => hq, a1, fun _ => .inl hs1⟩
    refine ⟨s1, ?_⟩
    simp only at h
    revert h h2
    cases exec n env (.acts l) s1 with
    | error e => intro h; simp at h
    | ok s2 =>
      rintro h ⟨b1, b2⟩
      refine ⟨s2, rfl, rfl, ?_⟩
      have h3 := exec_ok n env .update { s2 with intercepting := false }
        ⟨fun _ => hq, inv_int b1 false, b2.stack.trans hs1⟩
      simp only at h
      rw [h] at h3
      obtain ⟨c1, _, c3, c4⟩ := h3
      intro id hm d hd
      obtain ⟨d', hd'⟩ := (c1.nodesMap id).1 hm
      have := c1.nodeDue id d' hd'
      rw [hd] at this
      simp only [Option.some.injEq] at this
      subst this
      have := c4 _ hd'
      simp only at this c3
      omega

/-- **C15 (partial: while a blocking io handler runs, callbacks leave the timers alone; and the start
of the interval is the time the loop read last), never early.** Whenever a callback is invoked because the timer expired, the interval, counted
from the loop's time at the start, is over. -/
theorem C15_never_early_partial (n : Nat) (env : Env) (ops : List Op) (hio : CalmIo env ops) (c : Int) (s : State)
    (hs : run n env (State.init c) ops = .ok s) (newer older : List Ev) (id : Nat) (clk : Int)
    (h : s.log = newer ++ .called id false clk :: older) : ∃ d, due id older = some d ∧ d < clk := by
  have := run_inv n env ops hio c
  rw [hs] at this
  have hg := this.1.good
  rw [h] at hg
  have := good_suffix hg
  exact (this.2.1 rfl).1

/-- **C15 (partial: as above), order.** Over the whole run timers fire in the order of their due
times, those with the same due time in the order they were started (identities grow). -/
theorem C15_deadline_order_partial (n : Nat) (env : Env) (ops : List Op) (hio : CalmIo env ops) (c : Int) (s : State)
    (hs : run n env (State.init c) ops = .ok s) :
    (firedIds s.log).Pairwise (fun later earlier => ∃ dl de, due later s.log = some dl ∧
      due earlier s.log = some de ∧ (de < dl ∨ (de = dl ∧ earlier < later))) := by
  have := run_inv n env ops hio c
  rw [hs] at this
  refine this.1.firedSorted.imp ?_
  rintro a b ⟨x, y, h1, h2, h3⟩
  exact ⟨y, x, h2, h1, h3⟩

/-- **C16 (partial: as above), the failure.** The one thing that can go wrong inside the library: a
blocking handler cancels a timer that was pending when it did, and the timer had expired by then - its
callback was invoked by the very same call. -/
theorem C16_only_failure_partial (n : Nat) (env : Env) (ops : List Op) (hio : CalmIo env ops) (c : Int) (e : Err)
    (he : run n env (State.init c) ops = .error e) :
    e = .illegal ∨ e = .outOfFuel ∨
    ∃ id log d, e = .notFound id log ∧ due id log = some d ∧ d < loopTime log ∧ id ∈ firedIds log := by
  have := run_inv n env ops hio c
  rw [he] at this
  cases e with
  | fault => exact absurd rfl this.1
  | illegal => exact .inl rfl
  | outOfFuel => exact .inr (.inl rfl)
  | notFound id log =>
    obtain ⟨d, h1, h2, h3⟩ := this.2 id log rfl
    exact .inr (.inr ⟨id, log, d, rfl, h1, h2, h3⟩)

/-- while a blocking handler runs, calm callbacks do not make the loop read the clock -/
theorem quiet_loopTime (n : Nat) (env : Env) (hq : Quiet env) (cmd : Cmd) (s s' : State) (hi : s.intercepting = true)
    (hc : match cmd with | .acts l => ∀ a ∈ l, ∃ d, a = Act.work d | .update => False | _ => True)
    (h : exec n env cmd s = .ok s') : loopTime s'.log = loopTime s.log ∧ s'.intercepting = true := by
  induction n generalizing cmd s s' with
  | zero => simp [exec] at h
  | succ n ih =>
    cases cmd with
    | acts l =>
      cases l with
      | nil => simp only [exec, Except.ok.injEq] at h; subst h; exact ⟨rfl, hi⟩
      | cons a l =>
        obtain ⟨d, rfl⟩ := hc a (by simp)
        simp only [exec] at h
        exact ih (.acts l) { s with clock := s.clock + d } s' hi (fun a ha => hc a (by simp [ha])) h
    | update => exact hc.elim
    | loop c =>
      cases c with
      | none => simp only [exec, Except.ok.injEq] at h; subst h; exact ⟨rfl, hi⟩
      | some id =>
        simp only [exec] at h
        split at h
        · simp at h
        · split at h
          · split at h
            · simp at h
            · rename_i s1 hs1
              have h1 := ih (.trigger id false) s s1 hi trivial hs1
              split at h
              · simp at h
              · have h2 := ih (.loop _) { s1 with nodes := eraseNode id s1.nodes } s' h1.2 trivial h
                exact ⟨h2.1.trans h1.1, h2.2⟩
          · simp only [Except.ok.injEq] at h; subst h; exact ⟨rfl, hi⟩
    | trigger id c =>
      simp only [exec] at h
      split at h
      · simp only [Except.ok.injEq] at h; subst h; exact ⟨rfl, hi⟩
      · split at h
        · simp at h
        · rename_i s1 hs1
          have h1 := ih (.acts (env s.intercepting (.called id c s.clock :: s.log)))
            { s with log := .called id c s.clock :: s.log, stack := id :: s.stack } s1 hi (by simp only; rw [hi]; exact hq _) hs1
          split at h
          · simp at h
          · simp only [Except.ok.injEq] at h; subst h
            exact ⟨h1.1, h1.2⟩

/-- **C15 (partial: as above), blocking handlers.** A timer that a blocking handler starts is due an
interval after the call (the loop reads the clock first), not after the last reading before the
handler. -/
theorem C15_io_start_partial (n : Nat) (env : Env) (hq : ∀ log, ∀ a ∈ env true log, ∃ d, a = Act.work d)
    (iv : Nat) (s s' : State) (hi : s.intercepting = true)
    (h : exec n env (.acts [.start iv]) s = .ok s') :
    ∃ older, s'.log = .started s.next iv s.clock :: older ∧ loopTime older = s.clock ∧
      due s.next s'.log = some (s.clock + iv) := by
  cases n with
  | zero => simp [exec] at h
  | succ n =>
    simp only [exec, hi, if_true] at h
    split at h
    · simp at h
    · rename_i s1 hs1
      cases n with
      | zero => simp [exec] at h
      | succ n =>
        simp only [exec, Except.ok.injEq] at h hs1
        have h1 := (quiet_loopTime n env hq (.loop _) ⟨s.nodes, s.map, s.clock, true, s.clock, s.next + 1, s.stack,
          .updated s.clock :: s.log⟩ s1 rfl trivial hs1).1
        simp only [loopTime] at h1
        subst h
        exact ⟨s1.log, rfl, h1, by simp [due, h1]⟩

/-- a timer that restarts itself, another one that is cancelled by a handler; a blocking handler
starts a timer, during which the first one fires again, and cancels another one -/
def exEnv : Env := fun b log => match b, log with
  | false, .called 1 false _ :: _ => [.start 5]
  | _, .called _ _ _ :: _ => [.work 1]
  | _, _ => []
def exOps : List Op := [.handler [.start 5, .start 7, .start 5, .cancel 2, .work 6], .update, .handler [.work 6, .start 29],
  .io [.work 2, .start 3, .cancel 5, .work 10]]

example : ∃ s, run 40 exEnv (State.init 0) exOps = .ok s ∧ firedIds s.log = [6, 4, 3, 1] ∧ s.map = [] ∧ CalmIo exEnv exOps := by
  refine ⟨_, rfl, by decide, by decide, ?_⟩
  rintro _ log a ha
  unfold exEnv at ha
  split at ha <;> simp_all

/-! ## Where the code falls short -/

/-- The time of the loop is stale while a handler runs: a handler that needs 100 ms and then starts a
timer of 50 ms makes it expire at once - 0 ms after it was started. -/
theorem C15_stale_time_counterexample :
    ∃ s, run 20 (fun _ _ => []) (State.init 0) [.handler [.work 100, .start 50], .update] = .ok s ∧
      s.log = [.called 1 false 100, .updated 100, .started 1 50 100, .updated 0] := ⟨_, rfl, rfl⟩

/-- In a blocking io handler the user cancels a pending timer; the library first fires the expired
timers, this one among them, and then does not find it: an assertion fails (without assertions: the
end iterator is dereferenced).  The user's call was legal. -/
theorem C16_io_cancel_counterexample :
    ∃ s, run 20 (fun _ _ => []) (State.init 0) [.handler [.start 5]] = .ok s ∧ 1 ∈ s.map ∧
      stepOp 20 (fun _ _ => []) s (.io [.work 10, .cancel 1]) =
        .error (.notFound 1 [.called 1 false 10, .updated 10, .updated 0, .started 1 5 0, .updated 0]) :=
  ⟨_, rfl, by decide, rfl⟩

/-- A callback that restarts its timer, while an io handler runs: `start_timer` updates the time,
finds the same node still at the front of the list, and invokes the same callback again - without
end. -/
theorem C16_io_restart_diverges_counterexample :
    ∃ s, run 20 (fun _ _ => [.start 5]) (State.init 0) [.handler [.start 5, .work 10]] = .ok s ∧ s.map = [1] ∧
      ∀ n, stepOp n (fun _ _ => [.start 5]) s (.io []) = .error .outOfFuel := by
  refine ⟨_, rfl, by decide, ?_⟩
  have key : ∀ n (cmd : Cmd) (s : State), s.intercepting = true → s.nodes = [(1, 5)] → s.map = [1] → s.now = 10 →
      s.clock = 10 → (cmd = .update ∨ cmd = .loop (some 1) ∨ cmd = .trigger 1 false ∨ cmd = .acts [.start 5]) →
      exec n (fun _ _ => [.start 5]) cmd s = .error .outOfFuel := by
    intro n
    induction n with
    | zero => intros; rfl
    | succ n ih =>
      intro cmd s h1 h2 h3 h4 h5 hc
      rcases hc with rfl | rfl | rfl | rfl
      · simp only [exec]
        exact ih _ _ h1 h2 h3 h5 h5 (by simp [h2])
      · simp only [exec, h2, deadline?]
        simp only [List.find?_cons_of_pos, beq_self_eq_true, Option.map_some, h4]
        rw [if_pos (by decide), ih _ s h1 h2 h3 h4 h5 (.inr (.inr (.inl rfl)))]
      · simp only [exec]
        rw [if_neg (by simp [h3])]
        rw [ih (.acts [.start 5])]
        · exact h1
        · exact h2
        · exact h3
        · exact h4
        · exact h5
        · simp
      · simp only [exec, h1, if_true]
        rw [ih .update]
        · rfl
        · exact h2
        · exact h3
        · exact h4
        · exact h5
        · simp
  intro n
  cases n with
  | zero => rfl
  | succ n =>
    simp only [stepOp, exec]
    rw [key n]
    all_goals first | rfl | simp [State.init, ins]

end Verif.ThreadTimers
