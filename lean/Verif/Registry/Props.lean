import Verif.Registry.Lemmas

/-!
# Properties C20 - C23: the registry

`State.init.run ms` runs the code's registry on the messages `ms` and returns the final state and
all replies.  The specification is `Spec.lean`.
-/

namespace Verif.Registry
open Verif

/-- **C20.** For every sequence of messages the registry never fails, and the replies it sends are
those of one finite map from names to addresses with a queue of waiting promises; the stored
forward map is that map. -/
theorem C20_registry_is_a_map (ms : List Msg) :
    ∃ s out sp, State.init.run ms = .ok (s, out) ∧ Spec.Run Spec.init ms out sp ∧
      (∀ n, s.registered.find n = sp.owner n) ∧ s.promises = sp.waiting := by
  obtain ⟨s, out, h1, _, h3⟩ := run_refines State.init ms inv_init
  exact ⟨s, out, abs s, h1, h3, fun _ => rfl, rfl⟩

/-- the reply the code gives to a discovery after an arbitrary history -/
theorem C20_discovery_answer (ms : List Msg) (r : Req) (n : Name) :
    ∃ s out sp, State.init.run ms = .ok (s, out) ∧ Spec.Run Spec.init ms out sp ∧
      (s.onDiscovery r n).2 =
        [.discovery r (match sp.owner n with | some a => .ok a | none => .error .unknownService)] := by
  obtain ⟨s, out, sp, h1, h2, h3, _⟩ := C20_registry_is_a_map ms
  refine ⟨s, out, sp, h1, h2, ?_⟩
  simp only [State.onDiscovery, ← h3 n]
  cases s.registered.find n <;> rfl

/-- a non-trivial history: two names of one address, one released, a promise served later -/
def exMsgs : List Msg :=
  [.promise ⟨1, 70⟩ 3, .register ⟨2, 71⟩ 1 50, .register ⟨3, 71⟩ 2 50, .register ⟨4, 72⟩ 1 51,
   .deregisterName 1, .register ⟨5, 72⟩ 3 52, .discover ⟨6, 70⟩ 1, .deregister 50, .discover ⟨7, 70⟩ 3]

example : ∃ s, State.init.run exMsgs = .ok (s,
    [.registration ⟨2, 71⟩ none, .registration ⟨3, 71⟩ none, .registration ⟨4, 72⟩ (some .alreadyRegistered),
     .registration ⟨5, 72⟩ none, .future ⟨1, 70⟩ (.ok 52), .discovery ⟨6, 70⟩ (.error .unknownService),
     .discovery ⟨7, 70⟩ (.ok 52)]) := ⟨_, rfl⟩

/-- **C21.** After any history: registering a name that has an owner is answered with
`already_registered` only and leaves the registry exactly as it was; registering a free name
succeeds and makes the address its owner. -/
theorem C21_name_held_once (ms : List Msg) (r : Req) (n : Name) (a : Addr) :
    ∃ s out, State.init.run ms = .ok (s, out) ∧
      ((∃ b, s.registered.find n = some b) →
        s.step (.register r n a) = .ok (s, [.registration r (some .alreadyRegistered)])) ∧
      (s.registered.find n = none →
        ∃ s' rest, s.step (.register r n a) = .ok (s', .registration r none :: rest) ∧
          ∀ m, s'.registered.find m = if m = n then some a else s.registered.find m) := by
  obtain ⟨s, out, h1, _, _⟩ := run_refines State.init ms inv_init
  refine ⟨s, out, h1, ?_, ?_⟩
  · rintro ⟨b, hb⟩
    simp [State.step, State.onReg, hb]
  · intro hn
    refine ⟨_, _, by simp only [State.step, State.onReg, hn]; rfl, ?_⟩
    intro m; simp [AMap.find_set]

/-- **C21 (released names are free again).** After any history, once a name is withdrawn it can be
registered by anybody. -/
theorem C21_released_name_is_free (ms : List Msg) (n : Name) (r : Req) (a : Addr) :
    ∃ s out s' out', State.init.run (ms ++ [.deregisterName n]) = .ok (s, out) ∧
      s.step (.register r n a) = .ok (s', .registration r none :: out') ∧ s'.registered.find n = some a := by
  obtain ⟨s, out, h1, hinv, hrun⟩ := run_refines State.init (ms ++ [.deregisterName n]) inv_init
  have hfree : s.registered.find n = none := by
    have key : ∀ (ms : List Msg) sp out sp', Spec.Run sp (ms ++ [.deregisterName n]) out sp' → sp'.owner n = none := by
      intro ms
      induction ms with
      | nil =>
        intro sp out sp' h
        cases h with
        | cons h1 h2 => cases h2; cases h1; simp
      | cons m ms ih =>
        intro sp out sp' h
        cases h with
        | cons h1 h2 => exact ih _ _ _ h2
    exact key ms _ _ _ hrun
  refine ⟨s, out, _, _, h1, by simp only [State.step, State.onReg, hfree]; rfl, by simp⟩

/-- **C22.** After any history, withdrawing an address removes exactly the names whose owner is
that address, withdrawing a name removes exactly that name, nothing is replied and no promise is
lost. -/
theorem C22_withdraw_exact (ms : List Msg) (a : Addr) (n : Name) :
    ∃ s out, State.init.run ms = .ok (s, out) ∧
      (∃ s', s.step (.deregister a) = .ok (s', []) ∧ s'.promises = s.promises ∧
        ∀ m, s'.registered.find m = if s.registered.find m = some a then none else s.registered.find m) ∧
      (∃ s', s.step (.deregisterName n) = .ok (s', []) ∧ s'.promises = s.promises ∧
        ∀ m, s'.registered.find m = if m = n then none else s.registered.find m) := by
  obtain ⟨s, out, h1, hi, _⟩ := run_refines State.init ms inv_init
  refine ⟨s, out, h1, ?_, ?_⟩
  · obtain ⟨s', o, h2, _, h4⟩ := step_refines s (.deregister a) hi
    generalize hx : abs s' = x at h4
    cases h4
    simp only [abs, Spec.mk.injEq] at hx
    exact ⟨s', h2, hx.2, fun m => congrFun hx.1 m⟩
  · obtain ⟨s', o, h2, _, h4⟩ := step_refines s (.deregisterName n) hi
    generalize hx : abs s' = x at h4
    cases h4
    simp only [abs, Spec.mk.injEq] at hx
    exact ⟨s', h2, hx.2, fun m => congrFun hx.1 m⟩

/-- **C23 (exactly once).** For every history and every promise request: the answers sent plus the
copies still waiting are exactly the times it was asked. -/
theorem C23_promise_answered_once (ms : List Msg) (r : Req) :
    ∃ s out, State.init.run ms = .ok (s, out) ∧ answered r out + pending r s.promises = asked r ms := by
  obtain ⟨s, out, h1, _, h3⟩ := run_refines State.init ms inv_init
  refine ⟨s, out, h1, ?_⟩
  have key : ∀ sp ms out sp', Spec.Run sp ms out sp' →
      answered r out + pending r sp'.waiting = asked r ms + pending r sp.waiting := by
    intro sp ms out sp' h
    induction h with
    | nil => simp [answered, asked]
    | cons h1 h2 ih =>
      rename_i sp m out1 sp1 ms out' sp2
      have hstep : answered r out1 + pending r sp1.waiting = asked r [m] + pending r sp.waiting := by
        have hfilter : ∀ (n : Name) (a : Addr) (ps : List Promise),
            answered r ((ps.filter (fun p => p.name = n)).map (fun p => Reply.future p.req (.ok a))) +
              pending r (ps.filter (fun p => p.name ≠ n)) = pending r ps := by
          intro n a ps
          have hmap : ∀ l : List Promise,
              answered r (l.map (fun p => Reply.future p.req (.ok a))) = pending r l := by
            intro l; simp only [answered, pending, List.countP_map]; rfl
          rw [hmap]
          unfold pending
          induction ps with
          | nil => rfl
          | cons p ps ih =>
            simp only [List.filter_cons]
            by_cases hn : p.name = n
            · simp only [hn, decide_true, if_true, ne_eq, not_true_eq_false, decide_false, Bool.false_eq_true,
                if_false, List.countP_cons] at ih ⊢
              omega
            · simp only [hn, decide_false, Bool.false_eq_true, if_false, ne_eq, not_false_eq_true, decide_true,
                if_true, List.countP_cons] at ih ⊢
              omega
        cases h1 with
        | refuse => simp [answered, asked]
        | grant r' n a hn =>
          have := hfilter n a sp.waiting
          simp only [answered, asked, List.countP_cons, List.countP_nil] at this ⊢
          simpa using this
        | withdraw => simp [answered, asked]
        | release => simp [answered, asked]
        | found => simp [answered, asked]
        | notFound => simp [answered, asked]
        | atOnce r' n a hn =>
          simp only [answered, asked, List.countP_cons, List.countP_nil]
        | wait r' n hn =>
          simp only [answered, asked, pending, List.countP_append, List.countP_cons, List.countP_nil]
          omega
        | cancel id src pre p post hw hp hpost =>
          simp only [answered, asked, pending, hw, List.countP_append, List.countP_cons, List.countP_nil]
          simp; omega
        | cancelNothing => simp [answered, asked]
      have e1 : asked r (m :: ms) = asked r [m] + asked r ms := by
        simp only [asked, List.countP_cons, List.countP_nil]; omega
      have e2 : answered r (out1 ++ out') = answered r out1 + answered r out' := by
        simp [answered]
      omega
  have := key _ _ _ _ h3
  simpa [abs, State.init, pending] using this

example : asked ⟨1, 70⟩ exMsgs = 1 := rfl

/-- **C23 (nobody waits for a registered name).** After any history every waiting promise waits for
a name that has no owner: registration answers all of them. -/
theorem C23_no_wait_for_registered (ms : List Msg) :
    ∃ s out, State.init.run ms = .ok (s, out) ∧ ∀ p ∈ s.promises, s.registered.find p.name = none := by
  obtain ⟨s, out, h1, _, h3⟩ := run_refines State.init ms inv_init
  refine ⟨s, out, h1, ?_⟩
  have key : ∀ sp ms out sp', Spec.Run sp ms out sp' → (∀ p ∈ sp.waiting, sp.owner p.name = none) →
      ∀ p ∈ sp'.waiting, sp'.owner p.name = none := by
    intro sp ms out sp' h
    induction h with
    | nil => exact id
    | cons h1 h2 ih =>
      intro hp
      apply ih
      cases h1 with
      | refuse => exact hp
      | grant r n a hn =>
        intro p hp'
        simp only [List.mem_filter, decide_eq_true_eq] at hp'
        simp only [hp'.2, if_false]; exact hp p hp'.1
      | withdraw a => intro p hp'; simp [hp p hp']
      | release n => intro p hp'; simp [hp p hp']
      | found => exact hp
      | notFound => exact hp
      | atOnce => exact hp
      | wait r n hn =>
        intro p hp'
        rcases List.mem_append.1 hp' with h | h
        · exact hp p h
        · simp only [List.mem_singleton] at h; subst h; exact hn
      | cancel id src pre p post hw _ _ =>
        intro q hq
        apply hp q
        rw [hw]
        simp only [List.mem_append, List.mem_cons] at hq ⊢
        grind
      | cancelNothing => exact hp
  exact key _ _ _ _ h3 (by intro p hp; simp [abs, State.init] at hp)

/-- **C23 (order, only those concerned).** After any history, registering a free name answers
exactly the promises waiting for that name, in the order in which they were made, with the
registered address; the other promises keep waiting in their order. -/
theorem C23_registration_answers_in_order (ms : List Msg) (r : Req) (n : Name) (a : Addr) :
    ∃ s out, State.init.run ms = .ok (s, out) ∧
      (s.registered.find n = none →
        ∃ s', s.step (.register r n a) = .ok (s', .registration r none ::
            (s.promises.filter (fun p => p.name = n)).map (fun p => .future p.req (.ok a))) ∧
          s'.promises = s.promises.filter (fun p => p.name ≠ n)) := by
  obtain ⟨s, out, h1, _, _⟩ := run_refines State.init ms inv_init
  refine ⟨s, out, h1, ?_⟩
  intro hn
  refine ⟨_, by simp only [State.step, State.onReg, hn, answerPromises_spec]; rfl, ?_⟩
  simp [answerPromises_spec]

/-- **C23 (cancellation).** Cancelling a waiting promise answers that one with `cancelled` and
removes it; if several match, the latest.  Cancelling something that does not wait does nothing. -/
theorem C23_cancel (ms : List Msg) (id : Nat) (src : Addr) :
    ∃ s out, State.init.run ms = .ok (s, out) ∧
      ((∀ q ∈ s.promises, q.req ≠ ⟨id, src⟩) → s.step (.cancel id src) = .ok (s, [])) ∧
      (∀ pre p post, s.promises = pre ++ p :: post → p.req = ⟨id, src⟩ → (∀ q ∈ post, q.req ≠ ⟨id, src⟩) →
        s.step (.cancel id src) = .ok ({ s with promises := pre ++ post }, [.future p.req (.error .cancelled)])) := by
  obtain ⟨s, out, h1, _, _⟩ := run_refines State.init ms inv_init
  refine ⟨s, out, h1, ?_, ?_⟩
  · intro hq
    simp only [State.step, State.onCancel]
    split
    · rfl
    · rename_i p rest he
      obtain ⟨pre, post, e1, _, e3, _⟩ := eraseLast_some _ _ _ _ he
      exfalso
      apply hq p (by rw [e1]; simp)
      obtain ⟨⟨i, o⟩, m⟩ := p
      simpa using e3
  · intro pre p post hs hp hpost
    simp only [State.step, State.onCancel]
    have hlast : ∀ (pre : List Promise), eraseLast (fun p => p.req.id == id && p.req.origin == src) (pre ++ p :: post)
        = some (p, pre ++ post) := by
      intro pre
      induction pre with
      | nil =>
        simp only [List.nil_append, eraseLast]
        have : eraseLast (fun p => p.req.id == id && p.req.origin == src) post = none := by
          cases hh : eraseLast (fun p => p.req.id == id && p.req.origin == src) post with
          | none => rfl
          | some v =>
            obtain ⟨q, rest⟩ := v
            obtain ⟨pre', post', e1, _, e3, _⟩ := eraseLast_some _ _ _ _ hh
            exfalso
            apply hpost q (by rw [e1]; simp)
            obtain ⟨⟨i, o⟩, m⟩ := q
            simpa using e3
        simp [this, hp]
      | cons x pre ih => simp only [List.cons_append, eraseLast, ih]
    rw [hs, hlast]

example : ∃ s out, State.init.run [.promise ⟨1, 70⟩ 3, .promise ⟨2, 70⟩ 3, .promise ⟨3, 71⟩ 4] = .ok (s, out) ∧
    s.promises = [⟨⟨1, 70⟩, 3⟩] ++ ⟨⟨2, 70⟩, 3⟩ :: [⟨⟨3, 71⟩, 4⟩] ∧ s.registered.find 3 = none :=
  ⟨_, _, rfl, rfl, rfl⟩

end Verif.Registry
