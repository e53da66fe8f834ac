import Verif.Requests.Lemmas

/-!
# Properties C09 - C14: requests, responses and their timers
-/

namespace Verif.Requests
open Verif

theorem count_one_mem {α : Type} {p : α → Bool} {l : List α} (h : 0 < l.countP p) : ∃ x ∈ l, p x = true :=
  List.countP_pos_iff.1 h

theorem final_le_end (i : Nat) (l : List Ev) : l.countP (isFinal i) ≤ l.countP (isEnd i) := by
  apply List.countP_mono_left
  intro x _ hx
  cases x <;> simp_all [isFinal, isEnd]

/-- a response created from a reply: the reply has arrived before -/
theorem provenance (c : Cfg) (n : Nat) (env : Env) : ∀ (ops : List Op) (s s' : State), Inv c s → s.stack = [] →
    run c n env s ops = .ok s' →
    (∀ i p, .resolved i (some p) ∈ s'.log → .resolved i (some p) ∈ s.log ∨ (∃ t sup, (t, Msg.reply sup i p) ∈ s.queue) ∨
      ∃ sup, Op.arrive (.reply sup i p) ∈ ops) := by
  have stepP : ∀ (op : Op) (s s' : State), Inv c s → s.stack = [] → stepOp c n env s op = .ok s' →
      (∀ i p, .resolved i (some p) ∈ s'.log → .resolved i (some p) ∈ s.log ∨ ∃ t sup, (t, Msg.reply sup i p) ∈ s.queue) ∧
      (∀ t sup i p, (t, Msg.reply sup i p) ∈ s'.queue → (t, Msg.reply sup i p) ∈ s.queue ∨ op = .arrive (.reply sup i p)) := by
    intro op s s' h hs he
    have frame : ∀ cmd, Pre s cmd → exec c n env cmd s = .ok s' → 
        (∀ i p, .resolved i (some p) ∈ s'.log → .resolved i (some p) ∈ s.log) ∧
        (∀ t sup i p, (t, Msg.reply sup i p) ∈ s'.queue → (t, Msg.reply sup i p) ∈ s.queue) := by
      intro cmd hp he
      have := exec_good c env n cmd s h hp
      rw [he] at this
      exact ⟨this.2.1.answers, this.2.1.replies⟩
    cases op with
    | act a l =>
      obtain ⟨h1, h2⟩ := frame (.acts a l) trivial he
      exact ⟨fun i p hm => .inl (h1 i p hm), fun t sup i p hm => .inl (h2 t sup i p hm)⟩
    | fire o id =>
      obtain ⟨h1, h2⟩ := frame (.trigger o id false false) ⟨by rw [hs]; simp, rfl, by simp⟩ he
      exact ⟨fun i p hm => .inl (h1 i p hm), fun t sup i p hm => .inl (h2 t sup i p hm)⟩
    | arrive m =>
      cases m with
      | reply sup id p =>
        simp only [stepOp, Except.ok.injEq] at he
        subst he
        refine ⟨fun i p hm => .inl hm, fun t sup' i p' hm => ?_⟩
        simp only [put, List.mem_append, List.mem_singleton, Prod.mk.injEq, Msg.reply.injEq] at hm
        rcases hm with hm | ⟨_, rfl, rfl, rfl⟩
        · exact .inl hm
        · exact .inr rfl
      | other k =>
        simp only [stepOp, Except.ok.injEq] at he
        subst he
        refine ⟨fun i p hm => .inl hm, fun t sup' i p' hm => ?_⟩
        simp only [put, List.mem_append, List.mem_singleton, Prod.mk.injEq, reduceCtorEq, and_false, or_false] at hm
        exact .inl hm
    | finish a =>
      simp only [stepOp, finish] at he
      have h0 := inv_log c s (.finishing a) h (.inl ⟨a, rfl⟩)
      have g1 := exec_good c env n (.drainTimers a) _ h0 ⟨hs, by simp⟩
      revert he g1
      cases exec c n env (.drainTimers a) { s with log := .finishing a :: s.log } with
      | error e => intro he; simp at he
      | ok s1 =>
        intro he g1
        have hst1 : s1.stack = [] := g1.2.1.stack.trans hs
        have g2 := exec_good c env n (.drainRequests a) s1 g1.1 ⟨hst1, g1.2.1.log.mem (by simp)⟩
        revert he g2
        simp only
        cases exec c n env (.drainRequests a) s1 with
        | error e => intro he; simp at he
        | ok s2 =>
          intro he g2
          simp only at he
          split at he
          · cases he
          simp only [Except.ok.injEq] at he
          subst he
          refine ⟨fun i p hm => .inl ?_, fun t sup i p hm => .inl ?_⟩
          · simp only [List.mem_cons, reduceCtorEq, false_or] at hm
            simpa using g1.2.1.answers _ _ (g2.2.1.answers _ _ hm)
          · exact g1.2.1.replies _ _ _ _ (g2.2.1.replies _ _ _ _ hm)
    | process =>
      simp only [stepOp, process] at he
      cases hq : s.queue with
      | nil =>
        rw [hq] at he
        simp only [Except.ok.injEq] at he
        subst he
        exact ⟨fun i p hm => .inl hm, fun t sup i p hm => .inl (by rw [hq] at hm; exact hm)⟩
      | cons x rest =>
        obtain ⟨t, m⟩ := x
        rw [hq] at he
        simp only at he
        cases m with
        | reply sup id p =>
          simp only at he
          have hdrop := inv_drop c s t (.reply sup id p) rest h hq (by intro i; rfl)
          cases hr : s.reqs.find (sup, id) with
          | none =>
            have hh : onReply c n env { s with queue := rest } t sup id p = .ok { s with queue := rest } := by
              simp [onReply, hr]
            rw [hh] at he
            simp only [Except.ok.injEq] at he
            subst he
            exact ⟨fun i p hm => .inl hm, fun t' sup' i p' hm => .inl (by simp [hm])⟩
          | some cur =>
            cases n with
            | zero => rw [onReply_nofuel c env _ t sup id p cur hdrop hr] at he; simp at he
            | succ n =>
              rw [onReply_pending c n env _ t sup id p cur hdrop hr] at he
              simp only [Except.ok.injEq] at he
              subst he
              refine ⟨fun i p' hm => ?_, fun t' sup' i p' hm => .inl ?_⟩
              · simp only [afterEnd, List.mem_cons, Ev.resolved.injEq, Option.some.injEq] at hm
                rcases hm with ⟨rfl, rfl⟩ | hm
                · exact .inr ⟨t, sup, by simp⟩
                · exact .inl hm
              · simp only [afterEnd, List.mem_cons, Prod.mk.injEq, reduceCtorEq, and_false, false_or] at hm
                simp [hm]
        | request id =>
          simp only [Except.ok.injEq] at he
          subst he
          exact ⟨fun i p hm => .inl (by simpa using hm), fun t' sup' i p' hm => .inl (by simp only at hm; simp [hm])⟩
        | response id o p =>
          simp only [Except.ok.injEq] at he
          subst he
          exact ⟨fun i p hm => .inl (by simpa using hm), fun t' sup' i p' hm => .inl (by simp only at hm; simp [hm])⟩
        | other k =>
          simp only [Except.ok.injEq] at he
          subst he
          exact ⟨fun i p hm => .inl (by simpa using hm), fun t' sup' i p' hm => .inl (by simp only at hm; simp [hm])⟩
  intro ops
  induction ops with
  | nil =>
    intro s s' _ _ he i p hm
    simp only [run, Except.ok.injEq] at he
    subst he; exact .inl hm
  | cons op ops ih =>
    intro s s' h hs he i p hm
    simp only [run] at he
    have hg := stepOp_good c n env s op h hs
    have hsp := stepP op s
    revert he hg hsp
    cases stepOp c n env s op with
    | error e => intro he; simp at he
    | ok s1 =>
      intro he hg hsp
      obtain ⟨p1, p2⟩ := hsp s1 h hs rfl
      rcases ih s1 s' hg.1 hg.2.1 he i p hm with hm | ⟨t, sup, hm⟩ | ⟨sup, hm⟩
      · rcases p1 i p hm with hm | hm
        · exact .inl hm
        · exact .inr (.inl hm)
      · rcases p2 t sup i p hm with hm | rfl
        · exact .inr (.inl ⟨t, sup, hm⟩)
        · exact .inr (.inr ⟨sup, by simp⟩)
      · exact .inr (.inr ⟨sup, by simp [hm]⟩)

/-- **C09.** For every history of requests, replies (none, many, forged), timer expirations, timer
callbacks and shutdowns in which the identity counter does not overflow: for each request at most one
response is handed to the requester; it goes to the address given with the request, and it is either
the timeout error or the payload of a reply for this request that did arrive. -/
theorem C09_at_most_one_response (c : Cfg) (n : Nat) (env : Env) (ops : List Op) (s : State)
    (h : run c n env State.init ops = .ok s) :
    (∀ i, s.log.countP (isDeliv i) ≤ 1) ∧
    (∀ t i o p, .delivered t (.response i o p) ∈ s.log → (∃ a, .requested a i o ∈ s.log) ∧
      (p = none ∨ ∃ v sup, p = some v ∧ Op.arrive (.reply sup i v) ∈ ops)) := by
  obtain ⟨hi, _⟩ := reach c n env ops s h
  constructor
  · intro i
    have h1 := hi.C.count i
    have h2 := final_le_end i s.log
    have h3 := hi.B.ends i
    have h4 := hi.B.once i
    omega
  · intro t i o p hm
    obtain ⟨h1, h2⟩ := hi.C.dok t i o p hm
    refine ⟨h2, ?_⟩
    cases p with
    | none => exact .inl rfl
    | some v =>
      right
      rcases provenance c n env ops _ s (inv_init c) rfl h i v h1 with hm | ⟨t, sup, hm⟩ | ⟨sup, hm⟩
      · simp [State.init] at hm
      · simp [State.init] at hm
      · exact ⟨v, sup, rfl, hm⟩

/-- **C10, the three books agree, and nothing is forgotten.** At any time, a request that was made is in
exactly one of two situations: it is pending - known to the supervisor, guarded by an armed timer, and
listed as active at its actor - or it has come to its end exactly once, with a response or, only when
its actor or its supervisor has been shut down, without. -/
theorem C10_every_request_is_accounted (c : Cfg) (n : Nat) (env : Env) (ops : List Op) (s : State)
    (h : run c n env State.init ops = .ok s) :
    (∀ a i o, .requested a i o ∈ s.log →
      (s.reqs.find (c.supOf a, i) = some ⟨a, o⟩ ∧ s.timers.find (c.supOf a, i) = some .request ∧ (a, i) ∈ s.active ∧
        s.log.countP (isEnd i) = 0) ∨
      (s.log.countP (isEnd i) = 1 ∧ (a, i) ∉ s.active ∧ ∀ sup, s.reqs.find (sup, i) = none)) ∧
    (∀ sup i, s.timers.find (sup, i) = some .request ↔ ∃ a o, s.reqs.find (sup, i) = some ⟨a, o⟩) ∧
    (∀ a i, (a, i) ∈ s.active ↔ ∃ o, s.reqs.find (c.supOf a, i) = some ⟨a, o⟩) ∧
    (∀ i, .abandoned i ∈ s.log → ∃ a o, .requested a i o ∈ s.log ∧
      (.finishing a ∈ s.log ∨ .finishing (c.supOf a) ∈ s.log)) := by
  obtain ⟨hi, _⟩ := reach c n env ops s h
  refine ⟨?_, ?_, ?_, hi.B.why⟩
  · intro a i o hm
    obtain ⟨_, h2⟩ := hi.B.all a i o hm
    rcases h2 with h2 | h2
    · obtain ⟨g1, g2, _⟩ := hi.A.reqT _ _ h2
      exact .inl ⟨h2, g1, g2, (hi.B.pend _ _ h2).2⟩
    · refine .inr ⟨h2, ?_, ?_⟩
      · intro hact
        obtain ⟨cur, g1, _⟩ := hi.A.act _ _ hact
        have := (hi.B.pend _ _ g1).2
        simp only at this; omega
      · intro sup
        cases hf : s.reqs.find (sup, i) with
        | none => rfl
        | some cur => have := (hi.B.pend _ _ hf).2; simp only at this; omega
  · intro sup i
    constructor
    · intro ht; obtain ⟨cur, hc⟩ := hi.A.tReq _ ht; exact ⟨cur.source, cur.origin, hc⟩
    · rintro ⟨a, o, hr⟩; exact (hi.A.reqT _ _ hr).1
  · intro a i
    constructor
    · intro hm
      obtain ⟨cur, h1, h2⟩ := hi.A.act _ _ hm
      exact ⟨cur.origin, by rw [h1, ← h2]⟩
    · rintro ⟨o, hr⟩; exact (hi.A.reqT _ _ hr).2.1

/-- **C10, the timer resolves.** When the timer of a pending request expires, the request ends then and
there with a timeout response for its requester. -/
theorem C10_timeout_resolves (c : Cfg) (n : Nat) (env : Env) (ops : List Op) (s : State)
    (h : run c n env State.init ops = .ok s) (a i o : Nat) (hr : s.reqs.find (c.supOf a, i) = some ⟨a, o⟩) (n' : Nat) (env' : Env) :
    ∃ s', stepOp c (n' + 1) env' s (.fire (c.supOf a) i) = .ok s' ∧ s'.log = .resolved i none :: s.log ∧
      s'.queue = s.queue ++ [(s.tag, .response i o none)] ∧ s'.reqs.find (c.supOf a, i) = none := by
  obtain ⟨hi, _⟩ := reach c n env ops s h
  have ht := (hi.A.reqT _ _ hr).1
  obtain ⟨cur, s1, hr', he, he2⟩ := trigReq c s (c.supOf a) i false hi ht
  rw [hr] at hr'
  simp only [Option.some.injEq] at hr'
  subst hr'
  refine ⟨afterEnd s (c.supOf a) i ⟨a, o⟩ (.resolved i none) (s.queue ++ [(s.tag, .response i o none)]) (s.tag + 1), ?_, ?_⟩
  · simp only [stepOp, exec, ht, he]
    simp only [Bool.false_eq_true, if_false] at he2
    rw [he2]
  · exact ⟨rfl, rfl, by simp [afterEnd]⟩

/-- **C10, what is in the queue gets dispatched.** From any reachable state the loop empties the queue in
finitely many steps, without a fault. -/
theorem C10_queue_drains (c : Cfg) (n : Nat) (env : Env) (ops : List Op) (s : State)
    (h : run c n env State.init ops = .ok s) (n' : Nat) (env' : Env) :
    ∃ k s', run c (n' + 1) env' s (List.replicate k .process) = .ok s' ∧ s'.queue = [] ∧
      ∀ t m, (t, m) ∈ s.queue → (∀ sup i p, m ≠ .reply sup i p) → .delivered t m ∈ s'.log := by
  obtain ⟨hi, hs⟩ := reach c n env ops s h
  have key : ∀ (k : Nat) (s : State), Inv c s → s.stack = [] →
      s.queue.length + s.queue.countP (fun x => match x.2 with | .reply .. => true | _ => false) ≤ k →
      ∃ j s', run c (n' + 1) env' s (List.replicate j .process) = .ok s' ∧ s'.queue = [] ∧ s.log <:+ s'.log ∧
        ∀ t m, (t, m) ∈ s.queue → (∀ sup i p, m ≠ .reply sup i p) → .delivered t m ∈ s'.log := by
    intro k
    induction k with
    | zero =>
      intro s _ _ hk
      have : s.queue = [] := List.length_eq_zero_iff.1 (by omega)
      exact ⟨0, s, rfl, this, List.suffix_refl _, by rw [this]; simp⟩
    | succ k ih =>
      intro s hi hs hk
      cases hq : s.queue with
      | nil => exact ⟨0, s, rfl, hq, List.suffix_refl _, by simp⟩
      | cons x rest =>
        obtain ⟨t, m⟩ := x
        rw [hq] at hk
        have hg := process_good c (n' + 1) env' s hi hs
        -- the state after one step
        have hstep : ∃ s1, process c (n' + 1) env' s = .ok s1 ∧
            (s1.queue = rest ∨ ∃ i o p, s1.queue = (t, .response i o p) :: rest ∧ ∃ sup i p, m = .reply sup i p) ∧
            ((∀ sup i p, m ≠ .reply sup i p) → .delivered t m ∈ s1.log ∧ s1.queue = rest) := by
          cases m with
          | reply sup id p =>
            have hdrop := inv_drop c s t (.reply sup id p) rest hi hq (by intro i; rfl)
            cases hr : s.reqs.find (sup, id) with
            | none =>
              refine ⟨{ s with queue := rest }, ?_, .inl rfl, fun hn => absurd rfl (hn sup id p)⟩
              simp [process, hq, onReply, hr]
            | some cur =>
              refine ⟨afterEnd { s with queue := rest } sup id cur (.resolved id (some p)) ((t, .response id cur.origin (some p)) :: rest) s.tag,
                ?_, .inr ⟨id, cur.origin, some p, ?_, sup, id, p, rfl⟩, fun hn => absurd rfl (hn sup id p)⟩
              · have := onReply_pending c n' env' _ t sup id p cur hdrop hr
                simp only [process, hq]
                exact this
              · rfl
          | request id =>
            exact ⟨{ s with queue := rest, log := .delivered t (.request id) :: s.log }, by simp only [process, hq], .inl rfl, fun _ => ⟨List.mem_cons_self, rfl⟩⟩
          | response id o p =>
            exact ⟨{ s with queue := rest, log := .delivered t (.response id o p) :: s.log }, by simp only [process, hq], .inl rfl, fun _ => ⟨List.mem_cons_self, rfl⟩⟩
          | other j =>
            exact ⟨{ s with queue := rest, log := .delivered t (.other j) :: s.log }, by simp only [process, hq], .inl rfl, fun _ => ⟨List.mem_cons_self, rfl⟩⟩
        obtain ⟨s1, e1, e2, e3⟩ := hstep
        rw [e1] at hg
        obtain ⟨g1, g2, g3⟩ := hg
        have hm : s1.queue.length + s1.queue.countP (fun x => match x.2 with | .reply .. => true | _ => false) ≤ k := by
          rcases e2 with e2 | ⟨i, o, p, e2, sup, i', p', rfl⟩
          · rw [e2]
            simp only [List.length_cons, List.countP_cons] at hk
            omega
          · rw [e2]
            simp only [List.length_cons, List.countP_cons] at hk ⊢
            simp only [if_true, Bool.false_eq_true, if_false] at hk ⊢
            omega
        obtain ⟨j, s', r1, r2, r3, r4⟩ := ih s1 g1 g2 hm
        refine ⟨j + 1, s', ?_, r2, g3.trans r3, ?_⟩
        · simp only [List.replicate_succ, run, stepOp, e1]; exact r1
        · intro t' m' hm' hn
          simp only [List.mem_cons, Prod.mk.injEq] at hm'
          rcases hm' with ⟨rfl, rfl⟩ | hm'
          · exact r3.mem (e3 hn).1
          · apply r4 t' m' _ hn
            rcases e2 with e2 | ⟨i, o, p, e2, _⟩
            · rw [e2]; exact hm'
            · rw [e2]; simp [hm']
  obtain ⟨k, s', h1, h2, _, h4⟩ := key _ s hi hs (Nat.le_refl _)
  exact ⟨k, s', h1, h2, h4⟩

/-- **C10, no assertion fails** and nothing undefined happens, in any history: a run ends regularly, or
because user code cancelled a timer it does not have, or because the identities are used up (or because
callbacks recurse without bound). -/
theorem C10_no_fault (c : Cfg) (n : Nat) (env : Env) (ops : List Op) : run c n env State.init ops ≠ .error .fault := by
  have := run_good c n env ops State.init (inv_init c) rfl
  intro he
  rw [he] at this
  exact this rfl

/-- **C11.** A reply to a request that has ended, or was never made (by this supervisor's actors),
changes nothing at all but its own removal from the queue; it is not shown to anybody. -/
theorem C11_stale_reply_no_effect (c : Cfg) (n : Nat) (env : Env) (ops : List Op) (s : State)
    (h : run c n env State.init ops = .ok s) (t sup i p : Nat) (rest : List (Nat × Msg))
    (hq : s.queue = (t, .reply sup i p) :: rest)
    (hst : s.log.countP (isEnd i) ≠ 0 ∨ ∀ a o, c.supOf a = sup → .requested a i o ∉ s.log) (n' : Nat) (env' : Env) :
    stepOp c n' env' s .process = .ok { s with queue := rest } := by
  obtain ⟨hi, _⟩ := reach c n env ops s h
  have hr : s.reqs.find (sup, i) = none := by
    cases hf : s.reqs.find (sup, i) with
    | none => rfl
    | some cur =>
      exfalso
      obtain ⟨g1, g2⟩ := hi.B.pend _ _ hf
      rcases hst with hst | hst
      · exact hst g2
      · exact hst cur.source cur.origin (hi.A.reqT _ _ hf).2.2 g1
  simp [stepOp, process, hq, onReply, hr]

/-- **C12.** The messages of the queue, responses included, are dispatched in the order of arrival, where
a response has the place of its reply: the ordinals of the dispatched messages, followed by those still
in the queue, strictly increase. -/
theorem C12_responses_in_order (c : Cfg) (n : Nat) (env : Env) (ops : List Op) (s : State)
    (h : run c n env State.init ops = .ok s) : (delivTags s.log ++ s.queue.map (·.1)).Pairwise (· < ·) :=
  (reach c n env ops s h).1.C.sorted

/-- **C12, the step.** When the reply to a pending request is unwrapped, the response becomes the very
next message, in front of everything else in the queue. -/
theorem C12_response_is_next (c : Cfg) (n : Nat) (env : Env) (ops : List Op) (s : State)
    (h : run c n env State.init ops = .ok s) (t a i o p : Nat) (rest : List (Nat × Msg))
    (hq : s.queue = (t, .reply (c.supOf a) i p) :: rest) (hr : s.reqs.find (c.supOf a, i) = some ⟨a, o⟩) (n' : Nat) (env' : Env) :
    ∃ s' s'', stepOp c (n' + 1) env' s .process = .ok s' ∧ s'.queue = (t, .response i o (some p)) :: rest ∧
      stepOp c (n' + 1) env' s' .process = .ok s'' ∧ s''.queue = rest ∧
      s''.log = .delivered t (.response i o (some p)) :: .resolved i (some p) :: s.log := by
  obtain ⟨hi, _⟩ := reach c n env ops s h
  have hdrop := inv_drop c s t _ rest hi hq (by intro i; rfl)
  have := onReply_pending c n' env' _ t (c.supOf a) i p ⟨a, o⟩ hdrop hr
  refine ⟨afterEnd { s with queue := rest } (c.supOf a) i ⟨a, o⟩ (.resolved i (some p)) ((t, .response i o (some p)) :: rest) s.tag,
    { afterEnd { s with queue := rest } (c.supOf a) i ⟨a, o⟩ (.resolved i (some p)) rest s.tag with
      log := .delivered t (.response i o (some p)) :: .resolved i (some p) :: s.log }, ?_, ?_, ?_, ?_, ?_⟩
  · simp only [stepOp, process, hq]; exact this
  · rfl
  · rfl
  · rfl
  · rfl

/-- **C13 (partial: as long as the counter of `2^64` identities has not overflowed; what happens after
that is in `Verif.RequestIds`).** Two timers, guarding requests or started by user code, that are pending
at the same time anywhere in the locality have different identities; so have two pending requests. -/
theorem C13_identities_unique_partial (c : Cfg) (n : Nat) (env : Env) (ops : List Op) (s : State)
    (h : run c n env State.init ops = .ok s) :
    (∀ o o' i, (s.timers.find (o, i)).isSome → (s.timers.find (o', i)).isSome → o = o') ∧
    (∀ o o' i, (s.reqs.find (o, i)).isSome → (s.reqs.find (o', i)).isSome → o = o') ∧
    (∀ a a' i, (a, i) ∈ s.active → (a', i) ∈ s.active → a = a') := by
  obtain ⟨hi, _⟩ := reach c n env ops s h
  have ht : ∀ o o' i, (s.timers.find (o, i)).isSome → (s.timers.find (o', i)).isSome → o = o' := by
    intro o o' i h1 h2
    obtain ⟨t1, h1⟩ := Option.isSome_iff_exists.1 h1
    obtain ⟨t2, h2⟩ := Option.isSome_iff_exists.1 h2
    have := hi.A.uniq _ _ _ _ h1 h2 rfl
    simp only [Prod.mk.injEq] at this; exact this.1
  have hr : ∀ o o' i, (s.reqs.find (o, i)).isSome → (s.reqs.find (o', i)).isSome → o = o' := by
    intro o o' i h1 h2
    obtain ⟨t1, h1⟩ := Option.isSome_iff_exists.1 h1
    obtain ⟨t2, h2⟩ := Option.isSome_iff_exists.1 h2
    exact ht o o' i (by rw [(hi.A.reqT _ _ h1).1]; rfl) (by rw [(hi.A.reqT _ _ h2).1]; rfl)
  refine ⟨ht, hr, ?_⟩
  intro a a' i h1 h2
  obtain ⟨cur, g1, g2⟩ := hi.A.act _ _ h1
  obtain ⟨cur', k1, k2⟩ := hi.A.act _ _ h2
  have := hr _ _ i (by rw [g1]; rfl) (by rw [k1]; rfl)
  rw [this, k1] at g1
  simp only [Option.some.injEq] at g1
  rw [← g2, ← k2, g1]

/-- **C14.** When `shutdown_finish` of an actor has come to its end, whatever its timers' callbacks did
meanwhile: the actor has no timer and no active request left, no supervisor knows a request of it, and if it
is a supervisor, it knows no request any more; each of its timers that was pending had its callback called exactly once, with `cancelled = true`; and no
response to any of its requests is created any more, whatever happens later. -/
theorem C14_shut_down_has_nothing_pending (c : Cfg) (n : Nat) (env : Env) (ops : List Op) (s s' : State) (a : Nat)
    (h : run c n env State.init ops = .ok s) (hf : stepOp c n env s (.finish a) = .ok s') :
    (∀ i, s'.timers.find (a, i) = none) ∧ (∀ i, (a, i) ∉ s'.active) ∧
    (∀ k cur, s'.reqs.find k = some cur → cur.source ≠ a) ∧ (∀ i, s'.reqs.find (a, i) = none) ∧
    (∀ i, s.timers.find (a, i) = some .user → s'.log.countP (isCall a i) = 1 ∧ .called a i true ∈ s'.log) ∧
    (∀ i o, .requested a i o ∈ s'.log → ∀ (n' : Nat) (env' : Env) (ops' : List Op) (s'' : State),
      run c n' env' s' ops' = .ok s'' → s''.log.countP (isFinal i) = s'.log.countP (isFinal i)) := by
  obtain ⟨hi, hs⟩ := reach c n env ops s h
  have hg := finish_good c n env s a hi hs
  simp only [stepOp] at hf
  rw [hf] at hg
  obtain ⟨g1, g2, g3, g4, g5, g6⟩ := hg
  have hnoreq : ∀ k cur, s'.reqs.find k = some cur → cur.source ≠ a := by
    intro k cur hk he
    have := (g1.A.reqT k cur hk).2.1
    rw [he] at this
    exact g5 _ this
  refine ⟨g4, g5, hnoreq, ?_, ?_, ?_⟩
  · intro i
    cases hr : s'.reqs.find (a, i) with
    | none => rfl
    | some cur => have := (g1.A.reqT _ _ hr).1; rw [g4 i] at this; simp at this
  · intro i ht
    obtain ⟨k1, _, k3⟩ := hi.D.run a i ht
    have k3 := k3 (by rw [hs]; simp)
    obtain ⟨_, l2⟩ := g1.D.gone a i (g3.mem k1)
    rw [g4 i] at l2
    simp only [reduceCtorEq, false_or] at l2
    refine ⟨l2, ?_⟩
    obtain ⟨x, hx, hp⟩ := count_one_mem (p := isCall a i) (l := s'.log) (by omega)
    cases x with
    | called b j cn =>
      simp only [isCall, Bool.and_eq_true, beq_iff_eq] at hp
      obtain ⟨rfl, rfl⟩ := hp
      cases cn with
      | true => exact hx
      | false =>
        have := g6 _ _ hx
        have : 0 < s.log.countP (isCall b j) := List.countP_pos_iff.2 ⟨_, this, by simp [isCall]⟩
        omega
    | _ => simp [isCall] at hp
  · intro i o hm n' env' ops' s'' hrun
    have hend : s'.log.countP (isEnd i) = 1 := by
      rcases (g1.B.all a i o hm).2 with hr | hr
      · exact absurd rfl (hnoreq _ _ hr)
      · exact hr
    have hg2 := run_good c n' env' ops' s' g1 g2
    rw [hrun] at hg2
    obtain ⟨k1, _, k3⟩ := hg2
    obtain ⟨l, hl⟩ := k3
    have e1 := k1.B.ends i
    have e2 := k1.B.once i
    rw [← hl] at e1 e2 ⊢
    simp only [List.countP_append] at e1 e2 ⊢
    have e3 := final_le_end i l
    omega

/-- A cancellation callback that starts a new timer each time keeps `shutdown_finish` from ever
finishing. -/
theorem C14_restart_on_cancel_counterexample (c : Cfg) (n : Nat) (ops : List Op) (s s' : State) (a i : Nat)
    (h : run c n (fun _ => [.start]) State.init ops = .ok s) (ht : s.timers.find (a, i) = some .user) :
    stepOp c n (fun _ => [.start]) s (.finish a) ≠ .ok s' := by
  obtain ⟨hi, hs⟩ := reach c n _ ops s h
  have key : ∀ (n : Nat) (s s' : State), Inv c s → s.stack = [] → .finishing a ∈ s.log → (∃ i, s.timers.find (a, i) = some .user) →
      exec c n (fun _ => [.start]) (.drainTimers a) s ≠ .ok s' := by
    intro n
    induction n with
    | zero => intro s s' _ _ _ _; simp [exec]
    | succ n ih =>
      intro s s' hi hs hfin hex he
      simp only [exec] at he
      cases hf : firstTimer a s.timers with
      | none => obtain ⟨i, hx⟩ := hex; rw [firstTimer_none hf] at hx; simp at hx
      | some id =>
        rw [hf] at he
        simp only at he
        have hg := exec_good c (fun _ => [Act.start]) n (.trigger a id true false) s hi ⟨by rw [hs]; simp, rfl, fun _ _ _ => .inr hfin⟩
        revert he hg
        cases htr : exec c n (fun _ => [.start]) (.trigger a id true false) s with
        | error e => intro he; simp at he
        | ok s1 =>
          intro he hg
          refine ih s1 s' hg.1 (hg.2.1.stack.trans hs) (hg.2.1.log.mem hfin) ?_ he
          -- a user timer of `a` is there after the callback
          cases n with
          | zero => simp [exec] at htr
          | succ n =>
            simp only [exec] at htr
            cases hk : s.timers.find (a, id) with
            | none =>
              rw [hk] at htr
              simp only [Except.ok.injEq] at htr
              subst htr; exact hex
            | some k =>
              rw [hk] at htr
              cases k with
              | request =>
                simp only at htr
                obtain ⟨cur, s2, hr, e1, e2⟩ := trigReq c s a id true hi hk
                rw [e1] at htr
                simp only [Except.ok.injEq] at htr
                rw [e2] at htr
                subst htr
                obtain ⟨i, hx⟩ := hex
                refine ⟨i, ?_⟩
                have : (a, i) ≠ (a, id) := by intro hee; rw [hee, hk] at hx; simp at hx
                simp only [if_true, afterEnd, AMap.find_erase, if_neg this]; exact hx
              | user =>
                simp only at htr
                have hp := inv_push c s a id true hi hk (by rw [hs]; simp)
                cases n with
                | zero => simp [exec] at htr
                | succ n =>
                  simp only [exec] at htr
                  rcases userTimer_eq c { s with log := .called a id true :: s.log, stack := (a, id) :: s.stack } a hp.A with hu | hu
                  · rw [hu] at htr
                    simp only at htr
                    cases n with
                    | zero => simp [exec] at htr
                    | succ n =>
                      simp only [exec] at htr
                      have hne : (a, id) ≠ (a, s.last + 1) := by
                        have := hi.A.bound _ _ hk
                        intro hee; simp only [Prod.mk.injEq] at hee; simp only at this; omega
                      simp only [afterStart, AMap.find_set, if_neg hne, hk, reduceCtorEq, if_false, Except.ok.injEq] at htr
                      subst htr
                      refine ⟨s.last + 1, ?_⟩
                      simp only [AMap.find_erase, AMap.find_set]
                      rw [if_neg (fun he => hne he.symm)]; simp
                  · rw [hu] at htr; simp at htr
  simp only [stepOp, finish]
  intro he
  revert he
  have := fun s1 => key n { s with log := .finishing a :: s.log } s1 (inv_log c s (.finishing a) hi (.inl ⟨a, rfl⟩)) hs (by simp) ⟨i, ht⟩
  cases hx : exec c n (fun _ => [.start]) (.drainTimers a) { s with log := .finishing a :: s.log } with
  | error e => simp
  | ok s1 => exact absurd hx (this s1)

/-- two requests; the first is answered twice, the second times out, a plain message in between -/
example : ∃ s, run ⟨fun _ => 0, 0, 1000⟩ 10 (fun _ => []) State.init
    [.act 5 [.request 50, .request 51, .start], .process, .process, .arrive (.reply 0 1 77), .arrive (.other 9),
     .arrive (.reply 0 1 78), .process, .process, .process, .process, .fire 0 2, .process, .finish 5] = .ok s ∧
    s.log.reverse = [.requested 5 1 50, .requested 5 2 51, .started 5 3, .delivered 0 (.request 1), .delivered 1 (.request 2),
      .resolved 1 (some 77), .delivered 2 (.response 1 50 (some 77)), .delivered 3 (.other 9), .resolved 2 none,
      .delivered 5 (.response 2 51 none), .finishing 5, .called 5 3 true, .finished 5] :=
  ⟨_, rfl, rfl⟩

end Verif.Requests
