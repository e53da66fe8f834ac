import Verif.Lifecycle.Lemmas
/-! C29, C30, C31, C33 and C39 -/

namespace Verif.Lifecycle
open Verif

/-- an actor with three plugins: the second one agrees to init only when asked the second time -/
def exCfg : Cfg :=
  { n := 3, reacts := fun _ i => decide (i < 3), escalate := true, autoShutdown := true, spawned := false, failure := fun x => x == 7 }
def exEnv : Env := fun ph i l => (ph = .shut ∨ i ≠ 1 ∨ Ev.answer .init 1 false ∈ l, [])
def exOps : List Op := [.activate, .initRequest 1, .progress .init, .start, .shutRequest (some 2) (some 7)]
def logOf (r : Except Err State) : List Ev := match r with | .ok s => s.log | .error _ => []

/-- a complete life -/
example : logOf (run exCfg exEnv .init exOps) =
  [.became .shutDown, .replyShut 2 true, .answer .shut 0 true, .ask .shut 0, .answer .shut 1 true, .ask .shut 1,
   .answer .shut 2 true, .ask .shut 2, .trigger .childDown (some 7), .trigger .escalation (some 7), .became .shuttingDown,
   .gotShut (some 2) (some 7), .became .operational, .became .initialized, .replyInit 1 true, .answer .init 2 true,
   .ask .init 2, .answer .init 1 true, .ask .init 1, .answer .init 1 false, .ask .init 1, .answer .init 0 true, .ask .init 0,
   .gotInit 1, .became .initializing] := by decide

/-! ## C29 -/

def becameOf : Ev → Option AState
  | .became st => some st
  | _ => none

theorem rank_le_stateOf {c : Cfg} {l : List Ev} (h : Every (Rule c) l) : ∀ st, Ev.became st ∈ l → st.rank ≤ (stateOf l).rank := by
  induction l with
  | nil => intro st h; cases h
  | cons e l ih =>
    intro st hm
    rcases List.mem_cons.1 hm with hm' | hm'
    · subst hm'; exact Nat.le_refl _
    · have h1 := ih h.2 st hm'
      by_cases hb : ∃ st', e = .became st'
      · obtain ⟨st', rfl⟩ := hb
        have hr := h.1
        show st.rank ≤ st'.rank
        cases st' <;> simp only [Rule] at hr
        · rw [hr] at hm'; simp at hm'
        · rw [hr.1.1] at h1; exact Nat.le_trans h1 (by decide)
        · rw [hr] at h1; exact Nat.le_trans h1 (by decide)
        · exact Nat.le_trans h1 hr.1
        · rw [hr.1.1] at h1; exact Nat.le_trans h1 (by decide)
      · rw [stateOf_cons (fun st' hx => hb ⟨st', hx⟩)]; exact h1

/-- C29: the states an actor goes through come in the order of the life cycle; a state is entered at
most once, except that a repeated shutdown request enters SHUTTING_DOWN again -/
theorem C29_forward_only (c : Cfg) (env : Env) (ops : List Op) (s : State) (h : run c env .init ops = .ok s) :
    (s.log.filterMap becameOf).Pairwise (fun later earlier =>
      earlier.rank < later.rank ∨ (earlier = .shuttingDown ∧ later = .shuttingDown)) ∧
    ((s.log.filterMap becameOf).head?.getD .new = s.st) := by
  have hi := run_inv ops (inv_init c) h
  refine ⟨?_, ?_⟩
  · have hr := hi.rules
    generalize s.log = l at hr
    clear hi h
    induction l with
    | nil => simp
    | cons e l ih =>
      have hl := ih hr.2
      cases hb : becameOf e with
      | none => rw [List.filterMap_cons_none hb]; exact hl
      | some st =>
        rw [List.filterMap_cons_some hb]
        have he : e = .became st := by cases e <;> simp_all [becameOf]
        subst he
        refine List.pairwise_cons.2 ⟨?_, hl⟩
        intro st' hm
        obtain ⟨e', he', hx⟩ := List.mem_filterMap.1 hm
        have : e' = .became st' := by cases e' <;> simp_all [becameOf]
        subst this
        have h1 := rank_le_stateOf hr.2 st' he'
        have h2 := hr.1
        cases st <;> simp only [Rule] at h2
        · subst h2; cases he'
        · rw [h2.1.1] at h1; exact .inl (Nat.lt_of_le_of_lt h1 (by decide))
        · rw [h2] at h1; exact .inl (Nat.lt_of_le_of_lt h1 (by decide))
        · have h3 := Nat.le_trans h1 h2.1
          rcases Nat.lt_or_eq_of_le h3 with h3 | h3
          · exact .inl h3
          · right; refine ⟨?_, rfl⟩
            revert h3; cases st' <;> simp [AState.rank]
        · rw [h2.1.1] at h1; exact .inl (Nat.lt_of_le_of_lt h1 (by decide))
  · have : ∀ l : List Ev, (l.filterMap becameOf).head?.getD .new = stateOf l := by
      intro l
      induction l with
      | nil => rfl
      | cons e l ih => cases e <;> simp_all [becameOf, stateOf, List.findSome?]
    rw [this]; exact hi.st

/-- C29: nothing happens to an actor that is shut down; asking it to go on is an error -/
theorem C29_shut_down_is_final (c : Cfg) (env : Env) (s : State) (h : s.st = .shutDown) (op : Op) :
    step c env s op = .ok s ∨ ∃ e, step c env s op = .error e := by
  cases op <;> simp [step, State.listens, h]
  rename_i ph
  cases ph <;> simp [initContinue, shutdownContinue, h]

theorem C29_final_run (c : Cfg) (env : Env) (ops : List Op) : ∀ s s' : State, s.st = .shutDown → run c env s ops = .ok s' → s' = s := by
  induction ops with
  | nil => intro s s' _ he; injection he with he; exact he.symm
  | cons op ops ih =>
    intro s s' h he
    unfold run at he
    rcases C29_shut_down_is_final c env s h op with h1 | ⟨e, h1⟩
    · rw [h1] at he; exact ih s s' h he
    · rw [h1] at he; cases he

/-- C29: an actor becomes operational only after it has been initialized -/
theorem C29_operational_after_initialized (c : Cfg) (env : Env) (ops : List Op) (s : State) (h : run c env .init ops = .ok s)
    (l2 l1 : List Ev) (hl : s.log = l2 ++ .became .operational :: l1) : stateOf l1 = .initialized ∧ Ev.became .initialized ∈ l1 := by
  have h1 := every_iff.1 (run_inv ops (inv_init c) h).rules l2 _ l1 hl
  refine ⟨h1, ?_⟩
  have h2 : stateOf l1 = .initialized := h1
  clear h1 hl
  induction l1 with
  | nil => simp [stateOf] at h2
  | cons e l ih =>
    by_cases hb : ∃ st', e = .became st'
    · obtain ⟨st', rfl⟩ := hb
      simp only [stateOf] at h2; subst h2; simp
    · rw [stateOf_cons (fun st' hx => hb ⟨st', hx⟩)] at h2
      exact List.mem_cons_of_mem _ (ih h2)

/-- a request to go on with initialization while shutting down (as `link_client.cpp:85-88` can make) fails an assertion -/
theorem C29_continue_counterexample : run exCfg exEnv .init [.activate, .initRequest 1, .shutRequest (some 2) (some 3), .progress .init]
    = .error .fault := by rfl

/-! ## C30 -/

/-- C30: a plugin is asked only if it takes part and every plugin before it in the order of polling has
agreed -/
theorem C30_order (c : Cfg) (env : Env) (ops : List Op) (s : State) (h : run c env .init ops = .ok s)
    (l2 l1 : List Ev) (ph : Phase) (j : Nat) (hl : s.log = l2 ++ .ask ph j :: l1) :
    takesPart c ph j l1 = true ∧
    ∀ i, i < c.n → (match ph with | .init => i < j | .shut => j < i) → c.reacts ph i = true → Agreed ph i l1 := by
  have h1 := every_iff.1 (run_inv ops (inv_init c) h).rules l2 _ l1 hl
  refine ⟨h1.1, fun i hi hb hc => h1.2 i hi ?_ hc⟩
  cases ph <;> exact hb

/-- C30: initialization completes only when every plugin that takes part has agreed -/
theorem C30_unanimous_init (c : Cfg) (env : Env) (ops : List Op) (s : State) (h : run c env .init ops = .ok s)
    (l2 l1 : List Ev) (hl : s.log = l2 ++ .became .initialized :: l1) :
    ∀ i, i < c.n → c.reacts .init i = true → Agreed .init i l1 :=
  (every_iff.1 (run_inv ops (inv_init c) h).rules l2 _ l1 hl).2

/-- C30: and so does shutdown -/
theorem C30_unanimous_shutdown (c : Cfg) (env : Env) (ops : List Op) (s : State) (h : run c env .init ops = .ok s)
    (l2 l1 : List Ev) (hl : s.log = l2 ++ .became .shutDown :: l1) :
    ∀ i, i < c.n → c.reacts .shut i = true → Agreed .shut i l1 :=
  (every_iff.1 (run_inv ops (inv_init c) h).rules l2 _ l1 hl).2

/-- C30: a plugin that has agreed is not asked again unless it has joined again -/
theorem C30_not_again (c : Cfg) (env : Env) (ops : List Op) (s : State) (h : run c env .init ops = .ok s)
    (l3 l2 l1 : List Ev) (ph : Phase) (j : Nat) (hl : s.log = l3 ++ .ask ph j :: (l2 ++ .answer ph j true :: l1)) :
    Ev.joined ph j ∈ l2 := by
  have hr := (run_inv ops (inv_init c) h).rules
  have h1 := (every_iff.1 hr l3 _ _ hl).1
  -- the actor is activated once, at the beginning
  have hno : Ev.became .initializing ∉ l2 := by
    intro hm
    obtain ⟨a, b, rfl⟩ := List.append_of_mem hm
    have := every_iff.1 hr (l3 ++ .ask ph j :: a) (.became .initializing) (b ++ .answer ph j true :: l1) (by rw [hl]; simp)
    simp [Rule] at this
  clear hl
  induction l2 with
  | nil => simp [takesPart] at h1
  | cons e l2 ih =>
    have hno' : Ev.became .initializing ∉ l2 := fun hx => hno (List.mem_cons_of_mem _ hx)
    have hne : e ≠ .became .initializing := fun hx => hno (by rw [hx]; simp)
    by_cases hj : e = .joined ph j
    · rw [hj]; simp
    · refine List.mem_cons_of_mem _ (ih ?_ hno')
      cases e with
      | became st => cases st <;> simp_all [takesPart]
      | joined p i =>
        have : ¬ (p = ph ∧ i = j) := by rintro ⟨rfl, rfl⟩; exact hj rfl
        simpa [takesPart, this] using h1
      | left p i =>
        by_cases hx : p = ph ∧ i = j
        · simp [takesPart, hx] at h1
        · simpa [takesPart, hx] using h1
      | answer p i b =>
        cases b with
        | false => simpa [takesPart] using h1
        | true =>
          by_cases hx : p = ph ∧ i = j
          · simp [takesPart, hx] at h1
          · simpa [takesPart, hx] using h1
      | _ => simpa [takesPart] using h1

/-- C30: asking the plugins either completes the procedure or stops at one that has just refused -/
theorem C30_init_progress (c : Cfg) (env : Env) (ops : List Op) (s s' : State) (h : run c env .init ops = .ok s)
    (he : step c env s (.progress .init) = .ok s') :
    s'.st = .initialized ∨ (s'.st = .initializing ∧ ∃ i, s'.log.head? = some (.answer .init i false)) := by
  obtain ⟨q, hs, hst, ⟨rfl, i, k, hk⟩ | ⟨r, _, rfl⟩⟩ := initContinue_shape (run_inv ops (inv_init c) h) he
  · exact .inr ⟨hs.st.trans hst, i, by rw [hk]; rfl⟩
  · exact .inl rfl

theorem C30_shutdown_progress (c : Cfg) (env : Env) (ops : List Op) (s s' : State) (h : run c env .init ops = .ok s)
    (he : step c env s (.progress .shut) = .ok s') :
    s'.st = .shutDown ∨ (s'.st = .shuttingDown ∧ ∃ i, s'.log.head? = some (.answer .shut i false)) := by
  obtain ⟨q, hs, hst, ⟨rfl, i, k, hk⟩ | ⟨_, rfl⟩ | ⟨r, _, rfl⟩⟩ := shutdownContinue_shape (run_inv ops (inv_init c) h) he
  · exact .inr ⟨hs.st.trans hst, i, by rw [hk]; rfl⟩
  · exact .inl rfl
  · exact .inl rfl

/-- a plugin whose turn is over is not awaited when it joins again in the same pass: plugin 0 (e.g. the
resources plugin) acquires something while plugin 1 (e.g. the starter) is asked, and the actor is
initialized nevertheless -/
def lateEnv : Env := fun _ i _ => (true, if i = 1 then [.on .init 0] else [])
theorem C30_late_joiner_counterexample :
    (match run { exCfg with n := 2 } lateEnv .init [.activate, .initRequest 1] with
     | .ok s => (s.st, takesPart { exCfg with n := 2 } .init 0 s.log)
     | .error _ => (.unknown, false)) = (.initialized, true) := by decide

/-- the two passes of the example are instances: the second plugin was asked twice -/
example : (logOf (run exCfg exEnv .init exOps)).countP (· == .ask .init 1) = 2 := by decide

/-! ## C31 -/

/-- C31: as long as no registration or discovery fails, an init request is answered at most once, with
success if and only if the actor became INITIALIZED, and the latest one is either answered or still kept -/
theorem C31_init_answered (c : Cfg) (env : Env) (ops : List Op) (s : State) (h : run c env .init ops = .ok s)
    (ho : Op.registryFailed ∉ ops) :
    (∀ r, s.log.countP (isReplyInit r) ≤ s.log.countP (isGotInit r)) ∧
    ((∃ r, Ev.replyInit r true ∈ s.log) ↔ Ev.became .initialized ∈ s.log) ∧
    (∀ r, lastInit s.log = some r → s.initReq = some r ∨ ∃ ok, Ev.replyInit r ok ∈ s.log) := by
  have hi := run_inv ops (inv_init c) h
  have hc : InitCnt s := by
    refine run_ind (env := env) (ok := fun op => op ≠ .registryFailed) (P := InitCnt) (fun s s' op hi ho hc he => step_initCnt hi ho hc he)
      ops (inv_init c) ⟨?_, ?_, ?_⟩ (fun op hm hx => ho (hx ▸ hm)) h <;> simp [State.init, lastInit]
  refine ⟨fun r => ?_, ⟨?_, ?_⟩, hc.last⟩
  · have := hc.cnt r; omega
  · rintro ⟨r, hr⟩; exact hc.good r hr
  · intro hm
    obtain ⟨a, b, hab⟩ := List.append_of_mem hm
    obtain ⟨⟨_, r, l', hl⟩, _⟩ := every_iff.1 hi.rules a _ b hab
    exact ⟨r, by rw [hab, hl]; simp⟩

/-- SHUT_DOWN is the last thing that happens -/
def Last (s : State) : Prop := s.st = .shutDown → ∃ l, s.log = .became .shutDown :: l

theorem step_last {c : Cfg} {env : Env} {s s' : State} {op : Op} (hi : Inv c s) (hl : Last s) (he : step c env s op = .ok s') : Last s' := by
  by_cases hst : s.st = .shutDown
  · rcases C29_shut_down_is_final c env s hst op with h | ⟨e, h⟩
    · rw [h] at he; injection he with he; subst he; exact hl
    · rw [h] at he; cases he
  · have key : ∀ {s : State}, Inv c s → shutdownContinue c env s = .ok s' → Last s' := by
      intro s hi he
      obtain ⟨q, hs, h1, ⟨rfl, _⟩ | ⟨_, rfl⟩ | ⟨r, _, rfl⟩⟩ := shutdownContinue_shape hi he
      · intro hx; rw [hs.st, h1] at hx; cases hx
      · intro _; exact ⟨_, rfl⟩
      · intro _; exact ⟨_, rfl⟩
    have key2 : ∀ {s : State}, Inv c s → initContinue c env s = .ok s' → Last s' := by
      intro s hi he hx
      obtain ⟨_, _, _, _, h1, h2, _⟩ := initContinue_log hi he
      rcases h1 with h1 | h1 <;> rw [h1] at hx
      · rw [h2] at hx; cases hx
      · cases hx
    have keep : s' = s → Last s' := by intro h; subst h; exact hl
    have keep' : s'.st = s.st → Last s' := by intro h hx; rw [h] at hx; exact absurd hx hst
    cases op with
    | activate =>
      simp only [step] at he
      split at he
      · cases he
      · injection he with he; subst he; intro hx; simp [become] at hx
    | initRequest r =>
      simp only [step] at he
      split at he
      · rename_i hl
        have h0 := inv_initReq (inv_neutral hi (e := .gotInit r) trivial hl.1 trivial) hl.1 (some r)
        split at he
        · split at he
          · cases he
          exact key2 h0 he
        · injection he with he; subst he; exact keep' rfl
      · injection he with he; exact keep he.symm
    | start =>
      simp only [step] at he
      split at he
      · injection he with he; subst he; intro hx; simp [become] at hx
      · injection he with he; exact keep he.symm
    | shutRequest r reason =>
      simp only [step] at he
      split at he
      · rename_i hl
        exact key (noted_start_inv (reason := reason) hi hl.1 hl.2) he
      · injection he with he; exact keep he.symm
    | progress ph =>
      cases ph with
      | init => exact key2 hi he
      | shut => exact key hi he
    | effect e =>
      simp only [step] at he
      split at he
      · rename_i hl
        injection he with he; subst he
        exact keep' (applyEffs_inv [e] hi hl.1).2.st
      · injection he with he; exact keep he.symm
    | linkRefused =>
      simp only [step] at he
      split at he
      · split at he <;> (injection he with he; subst he; exact keep' rfl)
      · injection he with he; exact keep he.symm
    | registryFailed =>
      simp only [step] at he
      split at he
      · split at he
        · injection he with he; subst he; exact keep' rfl
        · cases he
      · injection he with he; exact keep he.symm
    | unlinkFailed =>
      simp only [step] at he
      split at he
      · split at he <;> (injection he with he; subst he; exact keep' rfl)
      · injection he with he; exact keep he.symm

theorem run_last {c : Cfg} {env : Env} (ops : List Op) {s s' : State} (hi : Inv c s) (hl : Last s) (he : run c env s ops = .ok s') : Last s' :=
  run_ind (env := env) (ok := fun _ => True) (P := Last) (fun _ _ _ hi _ hl he => step_last hi hl he) ops hi hl (fun _ _ => trivial) he

/-- C31: as long as no client fails to unlink, a shutdown request is answered at most once and only
when the actor is shut down; an actor that is shut down has answered its latest shutdown request -/
theorem C31_shutdown_answered (c : Cfg) (env : Env) (ops : List Op) (s : State) (h : run c env .init ops = .ok s)
    (ho : Op.unlinkFailed ∉ ops) :
    (∀ r, s.log.countP (isReplyShut r) ≤ s.log.countP (isGotShut r)) ∧
    (s.st ≠ .shutDown → ∀ r ok, Ev.replyShut r ok ∉ s.log) ∧
    (s.st = .shutDown → ∀ r, lastShut s.log = some r → Ev.replyShut r true ∈ s.log) := by
  have hi := run_inv ops (inv_init c) h
  have hc : ShutCnt s := by
    refine run_ind (env := env) (ok := fun op => op ≠ .unlinkFailed) (P := ShutCnt) (fun s s' op hi ho hc he => step_shutCnt hi ho hc he)
      ops (inv_init c) ⟨?_, ?_⟩ (fun op hm hx => ho (hx ▸ hm)) h <;> simp [State.init]
  refine ⟨fun r => ?_, hc.late, ?_⟩
  · have := hc.cnt r; omega
  · intro hst r hr
    obtain ⟨l, hl⟩ := run_last ops (inv_init c) (by simp [Last, State.init]) h hst
    have hr1 := every_iff.1 hi.rules [] (.became .shutDown) l hl
    rw [hl] at hr ⊢
    simp only [lastShut] at hr
    obtain ⟨l', hl'⟩ := hr1.1.2 r hr
    rw [hl']; simp

/-- with unique ids: exactly one answer to the shutdown request of an actor that is shut down -/
theorem C31_shutdown_exactly_once (c : Cfg) (env : Env) (ops : List Op) (s : State) (h : run c env .init ops = .ok s)
    (ho : Op.unlinkFailed ∉ ops) (r : Nat) (h1 : lastShut s.log = some r) (h2 : s.log.countP (isGotShut r) = 1) :
    s.log.countP (isReplyShut r) = if s.st = .shutDown then 1 else 0 := by
  obtain ⟨a, b, d⟩ := C31_shutdown_answered c env ops s h ho
  have := a r
  split
  · rename_i hst
    have hm := d hst r h1
    have : 0 < s.log.countP (isReplyShut r) := List.countP_pos_iff.2 ⟨_, hm, by simp [isReplyShut]⟩
    omega
  · rename_i hst
    rw [List.countP_eq_zero]
    intro e he hx
    cases e <;> simp [isReplyShut] at hx
    exact b hst _ _ he

example : (∀ s, run exCfg exEnv .init exOps = .ok s → s.log.countP (isReplyShut 2) = 1 ∧ s.log.countP (isReplyInit 1) = 1) := by
  intro s h
  have : s.log = logOf (run exCfg exEnv .init exOps) := by rw [h]; rfl
  rw [this]; decide

/-- the init request of an actor that is shut down first is never answered by the actor (its supervisor
withdraws the request, `child_manager.cpp:322-333`) -/
theorem C31_init_unanswered_counterexample : logOf (run exCfg (fun ph i _ => (ph = .shut ∨ i ≠ 1, [])) .init
    [.activate, .initRequest 1, .shutRequest (some 2) (some 3)]) =
    [.became .shutDown, .replyShut 2 true, .answer .shut 0 true, .ask .shut 0, .answer .shut 1 true, .ask .shut 1,
     .answer .shut 2 true, .ask .shut 2, .trigger .childDown (some 3), .became .shuttingDown, .gotShut (some 2) (some 3),
     .answer .init 1 false, .ask .init 1, .answer .init 0 true, .ask .init 0, .gotInit 1, .became .initializing] := by decide

/-- after a failed registration the init request is answered with the error but kept
(`registry.cpp:107-112`): it can be answered again, here even with success -/
theorem C31_init_twice_counterexample : (logOf (run exCfg exEnv .init [.activate, .initRequest 1, .registryFailed, .progress .init])).filter
    (isReplyInit 1) = [.replyInit 1 true, .replyInit 1 false] := by decide

/-- after a client has failed to unlink, the shutdown request is answered with the error but kept
(`link_server.cpp:84-90`): it is answered a second time in the end -/
theorem C31_shutdown_twice_counterexample :
    (logOf (run exCfg (fun ph i l => (ph = .init ∨ i ≠ 1 ∨ Ev.answer .shut 1 false ∈ l, [])) .init
      [.activate, .initRequest 1, .shutRequest (some 2) (some 3), .unlinkFailed, .progress .shut])).filter (isReplyShut 2)
    = [.replyShut 2 true, .replyShut 2 false] := by decide

/-! ## C33 -/

/-- C33: the reason of an actor is the first one it got, whatever comes later -/
theorem C33_first_reason (c : Cfg) (env : Env) (ops : List Op) (s : State) (h : run c env .init ops = .ok s) :
    s.reason = (s.log.reverse.filterMap (fun e => match e with | .gotShut _ x => x | _ => none)).head? := by
  have hi := run_inv ops (inv_init c) h
  rw [hi.reason]
  generalize s.log = l
  induction l with
  | nil => rfl
  | cons e l ih =>
    cases e with
    | gotShut r x =>
      simp only [firstReason, ih, List.reverse_cons, List.filterMap_append, List.head?_append]
      cases x <;> simp
    | _ => simp [firstReason, ih]

theorem C33_kept (c : Cfg) (env : Env) (s s' : State) (ops1 ops2 : List Op) (h1 : run c env .init ops1 = .ok s)
    (h2 : run c env s ops2 = .ok s') (x : Nat) (hx : s.reason = some x) : s'.reason = some x := by
  have hi := run_inv ops1 (inv_init c) h1
  refine run_ind (env := env) (ok := fun _ => True) (P := fun s => s.reason = some x) ?_ ops2 hi hx (fun _ _ => trivial) h2
  intro s s' op hi _ hx he
  have hi' := step_inv hi he
  obtain ⟨k, hk, -⟩ := step_log hi he
  have h1 := hi.reason
  have h2 := hi'.reason
  rw [hk] at h2
  rw [h2]
  rw [hx] at h1
  clear hk h2
  induction k with
  | nil => exact h1.symm
  | cons e k ih => cases e <;> simp [firstReason, ih]

/-- C33: if every request and trigger carries a reason (`do_shutdown` sees to it), an actor that has
started to shut down has one -/
theorem C33_has_reason (c : Cfg) (env : Env) (ops : List Op) (s : State) (h : run c env .init ops = .ok s)
    (ho : ∀ r, Op.shutRequest r none ∉ ops) (hst : AState.shuttingDown.rank ≤ s.st.rank) : ∃ x, s.reason = some x := by
  have hi := run_inv ops (inv_init c) h
  have hall : ∀ r x, Ev.gotShut r x ∈ s.log → x ≠ none := by
    refine run_ind (env := env) (ok := fun op => ∀ r, op ≠ .shutRequest r none) (P := fun s => ∀ r x, Ev.gotShut r x ∈ s.log → x ≠ none) ?_ ops
      (inv_init c) (by simp [State.init]) (fun op hm r hx => ho r (hx ▸ hm)) h
    intro s s' op hi ho hp he r x hm
    obtain ⟨k, hk, h1, _⟩ := step_log hi he
    rw [hk] at hm
    rcases List.mem_append.1 hm with hm | hm
    · intro hx; subst hx; exact ho r (h1 r none hm)
    · exact hp r x hm
  rw [hi.reason]
  have hs := hi.st
  have hr := hi.rules
  rw [← hs] at hst
  generalize s.log = l at *
  clear hi hs
  induction l with
  | nil => exact absurd hst (by decide)
  | cons e l ih =>
    have hall' : ∀ r x, Ev.gotShut r x ∈ l → x ≠ none := fun r x hm => hall r x (List.mem_cons_of_mem _ hm)
    cases e with
    | gotShut r x =>
      have := hall r x (by simp)
      cases x with
      | none => exact absurd rfl this
      | some x => simp only [firstReason]; cases firstReason l <;> simp
    | became st =>
      simp only [firstReason]
      have hr1 := hr.1
      simp only [stateOf] at hst
      cases st <;> simp [AState.rank] at hst
      · obtain ⟨_, r, x, l', hl'⟩ := hr1
        have := hall' r x (by rw [hl']; simp)
        cases x with
        | none => exact absurd rfl this
        | some x => rw [hl']; simp only [firstReason]; cases firstReason l' <;> simp
      · exact ih (by rw [hr1.1.1]; decide) hall' hr.2
    | _ => exact ih hst hall' hr.2

example : ∀ s, run exCfg exEnv .init [.activate, .shutRequest (some 1) (some 3), .shutRequest (some 2) (some 7)] = .ok s →
    s.reason = some 3 := by intro s h; have h := Except.ok.inj h; rw [← h]; decide

/-! ## C39 -/

def isChildDown : Ev → Bool
  | .trigger .childDown _ => true
  | _ => false
def isDown : Ev → Bool
  | .became .shuttingDown => true
  | _ => false
def isEscalation : Ev → Bool
  | .trigger .escalation _ => true
  | _ => false

structure Trig (c : Cfg) (s : State) : Prop where
  auto : s.log.countP isChildDown = if c.spawned = false ∧ c.autoShutdown = true then s.log.countP isDown else 0
  esc : 0 < s.log.countP isEscalation ↔
    (c.spawned = false ∧ c.escalate = true ∧ 0 < s.log.countP isDown ∧ ∃ x, s.reason = some x ∧ c.failure x = true)
  cause : ∀ t x, Ev.trigger t x ∈ s.log → x = none ∨ x = s.reason

def failing (c : Cfg) : Option Nat → Bool
  | some y => c.failure y
  | none => false

theorem triggers_childDown (c : Cfg) (x : Option Nat) : (triggers c x).countP isChildDown = if c.spawned = false ∧ c.autoShutdown = true then 1 else 0 := by
  unfold triggers
  cases x with
  | none => cases h1 : c.spawned <;> cases h2 : c.autoShutdown <;> simp <;> rfl
  | some y =>
    by_cases h3 : c.escalate = true ∧ c.failure y = true <;>
    cases h1 : c.spawned <;> cases h2 : c.autoShutdown <;> simp [h3] <;> rfl

theorem triggers_escalation (c : Cfg) (x : Option Nat) : (triggers c x).countP isEscalation =
    if c.spawned = false ∧ c.escalate = true ∧ failing c x = true then 1 else 0 := by
  unfold triggers
  cases x with
  | none => cases h1 : c.spawned <;> cases h2 : c.autoShutdown <;> simp [isEscalation, failing]
  | some y =>
    cases h1 : c.spawned <;> cases h2 : c.autoShutdown <;> simp [isEscalation, failing] <;>
    by_cases h3 : c.escalate = true ∧ c.failure y = true <;> simp [h3, isEscalation]

theorem same_isDown {s q : State} (h : Same s q) : q.log.countP isDown = s.log.countP isDown ∧
    q.log.countP isChildDown = s.log.countP isChildDown ∧ q.log.countP isEscalation = s.log.countP isEscalation := by
  exact ⟨same_count h (by simp [isDown]), same_count h (by simp [isChildDown]), same_count h (by simp [isEscalation])⟩

theorem step_trig {c : Cfg} {env : Env} {s s' : State} {op : Op} (hi : Inv c s) (ht : Trig c s) (he : step c env s op = .ok s') : Trig c s' := by
  obtain ⟨k, hk, h1, h2⟩ := step_log hi he
  by_cases hx : (∃ t x, Ev.trigger t x ∈ k) ∨ Ev.became .shuttingDown ∈ k ∨ s'.reason ≠ s.reason
  · obtain ⟨r, x, rfl, hl, hn⟩ := h2 hx
    simp only [step, hl, true_and] at he
    rw [if_pos (fun h => hn h)] at he
    have hni := noted_start_inv (c := c) (reason := x) hi hl hn
    obtain ⟨f1, f2, f3, f4, f5⟩ := start_fields c r x s
    have hkeep : ∀ y, s.reason = some y → (noted r x s).reason = some y := by
      intro y hy
      have : (noted r x s).reason = s.reason.or x := f4
      rw [this, hy]; rfl
    have hmid : Trig c (shutdownStart c (noted r x s)) := by
      have f4' : (shutdownStart c (noted r x s)).reason = (noted r x s).reason := rfl
      refine ⟨?_, ?_, ?_⟩
      · rw [f1, List.countP_append, List.countP_append, triggers_childDown, triggers_count (p := isDown) (by simp [isDown])]
        have := ht.auto
        simp only [List.countP_cons, isChildDown, isDown] at this ⊢
        by_cases hx : c.spawned = false ∧ c.autoShutdown = true <;> simp [hx] at this ⊢ <;> omega
      · rw [f1, f4', List.countP_append, List.countP_append, triggers_escalation, triggers_count (p := isDown) (by simp [isDown])]
        have := ht.esc
        generalize hq : (noted r x s).reason = z at *
        simp only [List.countP_cons, isEscalation, isDown]
        constructor
        · intro hpos
          by_cases hc : c.spawned = false ∧ c.escalate = true ∧ failing c z = true
          · refine ⟨hc.1, hc.2.1, by simp, ?_⟩
            cases z with
            | none => simp [failing] at hc
            | some y => exact ⟨y, rfl, hc.2.2⟩
          · rw [if_neg hc] at hpos
            have hpos' : 0 < s.log.countP isEscalation := by simpa using hpos
            obtain ⟨a1, a2, _, y, hy, hf⟩ := this.1 hpos'
            exact ⟨a1, a2, by simp, y, hkeep y hy, hf⟩
        · rintro ⟨a1, a2, _, y, hy, hf⟩
          subst hy
          rw [if_pos ⟨a1, a2, hf⟩]; omega
      · intro t y hm
        rw [f1] at hm
        rcases List.mem_append.1 hm with hm | hm
        · obtain ⟨t', hm⟩ := mem_triggers hm
          injection hm with _ hm; right; rw [hm]; rfl
        · have hm' : Ev.trigger t y ∈ s.log := by simpa using hm
          rcases ht.cause t y hm' with h | h
          · exact .inl h
          · cases y with
            | none => exact .inl rfl
            | some y => right; rw [f4', hkeep y h.symm]
    have fin : ∀ q, Same (shutdownStart c (noted r x s)) q → Trig c q := by
      intro q hs
      obtain ⟨d1, d2, d3⟩ := same_isDown hs
      refine ⟨?_, ?_, ?_⟩
      · rw [d1, d2]; exact hmid.auto
      · rw [d1, d3, hs.reason]; exact hmid.esc
      · intro t y hm
        rw [hs.reason]
        exact hmid.cause t y (same_mem hs hm (by simp))
    obtain ⟨q, hs, _, ⟨rfl, _⟩ | ⟨_, rfl⟩ | ⟨r', _, rfl⟩⟩ := shutdownContinue_shape hni he
    · exact fin _ hs
    · have := fin _ hs
      refine ⟨?_, ?_, ?_⟩
      · have h := this.auto
        simp only [become, List.countP_cons, isChildDown, isDown] at h ⊢
        simpa using h
      · have h := this.esc
        simp only [become, List.countP_cons, isEscalation, isDown] at h ⊢
        simpa using h
      · intro t y hm; exact this.cause t y (by simpa [become] using hm)
    · have := fin _ hs
      refine ⟨?_, ?_, ?_⟩
      · have h := this.auto
        simp only [become, List.countP_cons, isChildDown, isDown] at h ⊢
        simpa using h
      · have h := this.esc
        simp only [become, List.countP_cons, isEscalation, isDown] at h ⊢
        simpa using h
      · intro t y hm; exact this.cause t y (by simpa [become] using hm)
  · have hre : s'.reason = s.reason := Decidable.not_not.1 (fun h => hx (.inr (.inr h)))
    have z1 : k.countP isChildDown = 0 := by
      rw [List.countP_eq_zero]; intro e he hh
      cases e <;> simp [isChildDown] at hh
      exact hx (.inl ⟨_, _, he⟩)
    have z2 : k.countP isEscalation = 0 := by
      rw [List.countP_eq_zero]; intro e he hh
      cases e <;> simp [isEscalation] at hh
      exact hx (.inl ⟨_, _, he⟩)
    have z3 : k.countP isDown = 0 := by
      rw [List.countP_eq_zero]; intro e he hh
      cases e with
      | became st => cases st <;> simp [isDown] at hh; exact hx (.inr (.inl he))
      | _ => simp [isDown] at hh
    refine ⟨?_, ?_, ?_⟩
    · rw [hk, List.countP_append, List.countP_append, z1, z3]; simpa using ht.auto
    · rw [hk, List.countP_append, List.countP_append, z2, z3, hre]; simpa using ht.esc
    · intro t y hm
      rw [hk] at hm
      rcases List.mem_append.1 hm with hm | hm
      · exact absurd (.inl ⟨t, y, hm⟩) hx
      · rw [hre]; exact ht.cause t y hm

theorem run_trig {c : Cfg} {env : Env} {ops : List Op} {s : State} (h : run c env .init ops = .ok s) : Trig c s := by
  refine run_ind (env := env) (ok := fun _ => True) (P := Trig c) (fun _ _ _ hi _ ht he => step_trig hi ht he) ops (inv_init c)
    ⟨?_, ?_, ?_⟩ (fun _ _ => trivial) h <;> simp [State.init]

/-- C39: an actor asks its supervisor to shut down because of the autoshutdown flag each time it starts
to shut down if it has the flag and is not spawned, and never otherwise -/
theorem C39_autoshutdown (c : Cfg) (env : Env) (ops : List Op) (s : State) (h : run c env .init ops = .ok s) :
    s.log.countP isChildDown = if c.spawned = false ∧ c.autoShutdown = true then s.log.countP isDown else 0 :=
  (run_trig h).auto

/-- C39: it asks its supervisor to shut down because of a failure if and only if it goes down with a
failure as (first) reason, has the escalation flag and is not spawned; the request carries that reason -/
theorem C39_escalation (c : Cfg) (env : Env) (ops : List Op) (s : State) (h : run c env .init ops = .ok s) :
    ((∃ x, Ev.trigger .escalation x ∈ s.log) ↔ (c.spawned = false ∧ c.escalate = true ∧ Ev.became .shuttingDown ∈ s.log ∧
      ∃ x, s.reason = some x ∧ c.failure x = true)) ∧
    ∀ t x, Ev.trigger t x ∈ s.log → x = none ∨ x = s.reason := by
  have ht := run_trig h
  refine ⟨?_, ht.cause⟩
  have h1 : (∃ x, Ev.trigger .escalation x ∈ s.log) ↔ 0 < s.log.countP isEscalation := by
    rw [List.countP_pos_iff]
    constructor
    · rintro ⟨x, hx⟩; exact ⟨_, hx, rfl⟩
    · rintro ⟨e, he, hh⟩
      cases e with
      | trigger t x => cases t <;> simp [isEscalation] at hh; exact ⟨x, he⟩
      | _ => simp [isEscalation] at hh
  have h2 : Ev.became .shuttingDown ∈ s.log ↔ 0 < s.log.countP isDown := by
    rw [List.countP_pos_iff]
    constructor
    · intro hx; exact ⟨_, hx, rfl⟩
    · rintro ⟨e, he, hh⟩
      cases e with
      | became st => cases st <;> simp [isDown] at hh; exact he
      | _ => simp [isDown] at hh
  rw [h1, h2]
  exact ht.esc

/-- the actor of the example asks twice, once for each flag -/
example : (logOf (run exCfg exEnv .init exOps)).filter (fun e => isChildDown e || isEscalation e)
    = [.trigger .childDown (some 7), .trigger .escalation (some 7)] := by decide
/-- a spawned one does not ask -/
example : (logOf (run { exCfg with spawned := true } exEnv .init exOps)).filter (fun e => isChildDown e || isEscalation e) = [] := by decide

end Verif.Lifecycle
