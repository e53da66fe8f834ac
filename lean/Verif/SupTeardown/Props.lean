import Verif.SupTeardown.Steps
/-!
# C72: a supervisor takes itself apart completely, in the right order, and without a fault
-/

namespace Verif.SupTeardown
open Verif

theorem reach_good {c : Cfg} {env : Env} {ops : List Op} {s : State} (h : run c env (State.init c) ops = .ok s) : Good c env s := by
  rcases run_good ops (init_good c env) with e | ⟨s', e, g⟩
  · rw [e] at h; cases h
  · rw [e] at h
    rwa [Except.ok.inj h] at g

/-- **C72**. Whatever the plugins answer, whatever the supervisor and its children request and whenever the children confirm
their shutdown: no assertion fails, no exception leaves a noexcept function and no plugin is used after it was deactivated; and
calls of `shutdown_continue` are nested at most once. -/
theorem C72_no_fault (c : Cfg) (env : Env) (ops : List Op) :
    run c env (State.init c) ops ≠ .error .fault ∧ run c env (State.init c) ops ≠ .error .deep := by
  rcases run_good ops (init_good c env) with e | ⟨s', e, _⟩
  · rw [e]; exact ⟨by simp, by simp⟩
  · rw [e]; exact ⟨by simp, by simp⟩

/-- **C72**. When the supervisor reports that it is shut down, every subscription that was ever made (of the plugins, of the
user, and for the responses to requests of the supervisor and of its children) has been removed, exactly once; all records of
children, its own record and all mapped addresses are gone. -/
theorem C72_nothing_left (c : Cfg) (env : Env) (ops : List Op) (s : State) (h : run c env (State.init c) ops = .ok s)
    (hr : .reply ∈ s.log) :
    (∀ x, s.log.count (.made x) = s.log.count (.removed x)) ∧ (∀ p, s.own p = []) ∧ s.points = [] ∧ s.kids = [] ∧
      s.selfRec = false ∧ s.mapping = [] ∧ (∀ a, .created a ∈ s.log → .gone a ∈ s.log) := by
  obtain ⟨hl, hA | hB | hD⟩ := reach_good h
  · exact absurd hr hA.1.base.nr
  · exact absurd hr hB.1.base.nr
  · refine ⟨fun x => (hD.lg x).1, hD.own, hD.points, hD.kids, hD.sr, hD.mapping, ?_⟩
    intro a ha
    rcases hl.cr a ha with q | q
    · exact q
    · rw [hD.kids] at q; cases q

/-- **C72**. It reports this once, and precisely when its state is `SHUT_DOWN`. -/
theorem C72_reply_once (c : Cfg) (env : Env) (ops : List Op) (s : State) (h : run c env (State.init c) ops = .ok s) :
    s.log.count .reply = (if s.st = .shutDown then 1 else 0) := by
  obtain ⟨_, hA | hB | hD⟩ := reach_good h
  · have hst : s.st ≠ .shutDown := by rcases hA.1.st with q | q <;> rw [q] <;> simp
    rw [if_neg hst]
    exact List.count_eq_zero.mpr hA.1.base.nr
  · have hst : s.st ≠ .shutDown := by rw [hB.1.st]; simp
    rw [if_neg hst]
    exact List.count_eq_zero.mpr hB.1.base.nr
  · rw [if_pos hD.st]
    obtain ⟨l, e, hn⟩ := hD.rep
    rw [e, List.count_cons_self, List.count_eq_zero.mpr hn]

/-- **C72**. At any time: no subscription is made twice, removed twice, or removed without having been made. -/
theorem C72_removed_once (c : Cfg) (env : Env) (ops : List Op) (s : State) (h : run c env (State.init c) ops = .ok s) (x : Sub) :
    s.log.count (.removed x) ≤ s.log.count (.made x) ∧ s.log.count (.made x) ≤ 1 := by
  have key : ∀ (fl : Option Sub), SBase c s fl → s.log.count (.removed x) ≤ s.log.count (.made x) ∧ s.log.count (.made x) ≤ 1 := by
    intro fl hb
    rcases hb.ct x with ⟨_, q1, q2⟩ | ⟨_, q1, q2, _⟩ | ⟨_, q1, q2⟩ <;> omega
  obtain ⟨_, hA | hB | hD⟩ := reach_good h
  · exact key _ hA.1.base
  · exact key _ hB.1.base
  · have := hD.lg x
    omega

/-- **C72**. As long as a child has a record, all plugins of the supervisor work and none of their own subscriptions has been
given up, so the supervisor can still handle everything its children do. The one exception is the plugin for subscribers of
other localities, see `C72_foreigners_first_counterexample` and C79. -/
theorem C72_children_first (c : Cfg) (env : Env) (ops : List Op) (s : State) (h : run c env (State.init c) ops = .ok s)
    (a : Nat) (ha : .created a ∈ s.log) (hg : .gone a ∉ s.log) :
    (∀ p, p < c.n → p ≠ c.fgn → s.active p = true) ∧ (∀ p x, p < c.n → p ≠ c.fgn → x ∈ core c p → x ∈ s.own p) ∧
      (∀ p k, p ≠ c.fgn → .removed (.plug p k) ∉ s.log) := by
  obtain ⟨hl, hA | hB | hD⟩ := reach_good h
  · exact ⟨hA.1.act.1, fun p x hp hpf hx => (hA.1.cor p x hp hpf hx).1, fun p k hpf hr => hpf (hA.1.rp p k hr)⟩
  · exfalso
    rcases hl.cr a ha with q | q
    · exact hg q
    · rw [hB.1.kd] at q; cases q
  · exfalso
    rcases hl.cr a ha with q | q
    · exact hg q
    · rw [hD.kids] at q; cases q

/-- **C72**. The record of a child is kept, and with it the subscriptions for the responses to its requests, until the child has
confirmed its shutdown. -/
theorem C72_kept_until_confirmed (c : Cfg) (env : Env) (ops : List Op) (s : State) (h : run c env (State.init c) ops = .ok s)
    (a : Nat) (h0 : a ≠ 0) (hc : .confirmed a ∉ s.log) : .gone a ∉ s.log ∧ ∀ ty k, .removed (.map a ty k) ∉ s.log := by
  have hl := (reach_good h).1
  exact ⟨fun e => hc (hl.gn a h0 e), fun ty k e => hc (hl.rm a ty k h0 e)⟩

/-- when the supervisor is shut down nothing happens any more -/
theorem done_stays {c : Cfg} {env : Env} {s' : State} (l : List Op) : ∀ {s : State}, Done c s → run c env s l = .ok s' →
    s'.st = .shutDown := by
  induction l with
  | nil => intro s hd he; obtain rfl := Except.ok.inj he; exact hd.st
  | cons op l ih =>
    intro s hd he
    simp only [run] at he
    split at he
    · cases he
    · next s3 e3 =>
      have hrs : s.react c.shut ≠ true := by rw [hd.rs]; simp
      have hrank : ¬ s.st.rank < AState.shuttingDown.rank := by rw [hd.st]; decide
      have hop : op = .confirm ∨ step c env s op = .error .illegal := by
        cases op with
        | shutdown => exact Or.inr (if_neg hrank)
        | cont p => exact Or.inr (if_neg fun q => by rw [hd.st] at q; cases q.1)
        | join p => exact Or.inr (if_neg fun q => hrs q.1)
        | confirm => exact Or.inl rfl
        | subscribe b => exact Or.inr (if_neg hrs)
        | unsubscribe x => exact Or.inr (if_neg hrs)
        | create a => exact Or.inr (if_neg fun q => hrank q.1)
        | request a ty => exact Or.inr (if_neg fun q => hrs q.1)
        | ask a => exact Or.inr (if_neg fun q => hrs q.1)
        | kidConfirm a => exact Or.inr (if_neg fun q => by rw [hd.kids] at q; cases q.1)
        | foreignLeft => exact Or.inr (if_neg fun q => by rw [hd.st] at q; cases q.1)
      rcases hop with e | e
      · subst e
        have : confirm c env s = .ok s := by simp only [confirm, hd.queue]
        have e3 : confirm c env s = .ok s3 := e3
        rw [this] at e3
        obtain rfl := Except.ok.inj e3
        exact ih hd he
      · rw [e] at e3; cases e3

/-- **C72**. Once the plugins are being deactivated, every delivered message brings the end nearer, whatever else happens: the
number of subscriptions still there, plus the number of the messages delivered since, never exceeds the number of the
subscriptions at the beginning; and as long as the supervisor is not shut down there is a message to deliver. -/
theorem C72_drains (c : Cfg) (env : Env) (ops ops' : List Op) (s s' : State) (h : run c env (State.init c) ops = .ok s)
    (hs : s.react c.shut = false) (h' : run c env s ops' = .ok s') :
    s'.st = .shutDown ∨ (s'.queue ≠ [] ∧ size c s' + ops'.count .confirm ≤ size c s) := by
  have key : ∀ (ops' : List Op) (s : State), SLg s → B c s none none → K c s → run c env s ops' = .ok s' →
      s'.st = .shutDown ∨ (s'.queue ≠ [] ∧ size c s' + ops'.count .confirm ≤ size c s) := by
    intro ops'
    induction ops' with
    | nil =>
      intro s _ h hk he
      obtain rfl := Except.ok.inj he
      exact Or.inr ⟨B_queue h hk, by simp⟩
    | cons op ops' ih =>
      intro s hl h hk he
      simp only [run] at he
      split at he
      · cases he
      · next s1 e1 =>
        have hrs : s.react c.shut ≠ true := by rw [h.ro _ (shut_lt c) (shut_ne_life c)]; simp
        have hrank : ¬ s.st.rank < AState.shuttingDown.rank := by rw [h.st]; decide
        have ill : ∀ {P : Prop}, step c env s op = .error .illegal → P := by
          intro P e; rw [e] at e1; cases e1
        cases op with
        | shutdown => exact ill (if_neg hrank)
        | join p => exact ill (if_neg fun q => hrs q.1)
        | subscribe b => exact ill (if_neg hrs)
        | unsubscribe x => exact ill (if_neg hrs)
        | create a => exact ill (if_neg fun q => hrank q.1)
        | request a ty => exact ill (if_neg fun q => hrs q.1)
        | ask a => exact ill (if_neg fun q => hrs q.1)
        | kidConfirm a => exact ill (if_neg fun q => by rw [h.kd] at q; cases q.1)
        | foreignLeft =>
          simp only [step] at e1
          split at e1
          · rw [base_nop h (fgn_lt c) (Ne.symm (life_ne_fgn c)) (by simp) (fun e => absurd e c.hf3)] at e1
            obtain rfl := Except.ok.inj e1
            rw [List.count_cons_of_ne (by simp)]
            exact ih s hl h hk he
          · cases e1
        | cont p =>
          simp only [step] at e1
          split at e1
          · next q =>
            have hln : s.lifeNull = false := by
              cases e : s.lifeNull
              · rfl
              · have := h.ln e p q.2.1 q.2.2.2.1 (by simp)
                rw [q.2.2.1] at this; cases this
            obtain ⟨s2, g1, g2, g3, g4⟩ := cont_B env (sc c env 1) h hln
            have g1 : sc c env depth s = .ok s2 := g1
            rw [g1] at e1
            obtain rfl := Except.ok.inj e1
            obtain ⟨z1, z2, z3, z4, z5, z6, z7, z8, z9, z10, z11⟩ := g4
            have hsz : size c s2 = size c s := by simp only [size, z1, z3]
            rcases ih s2 (by show Lg s2.log s2.kids s2.conf; rw [z4, z11, z6]; exact hl) g2 g3 he with w | ⟨w1, w2⟩
            · exact Or.inl w
            · refine Or.inr ⟨w1, ?_⟩
              rw [List.count_cons_of_ne (by simp)]
              omega
          · cases e1
        | confirm =>
          obtain ⟨s2, g1, g2, _, g3⟩ := confirm_B (env := env) h hk hl
          have e1 : confirm c env s = .ok s1 := e1
          rw [g1] at e1
          obtain rfl := Except.ok.inj e1
          rcases g3 with ⟨q1, q2, q3⟩ | q
          · rcases ih s2 g2 q1 q2 he with w | ⟨w1, w2⟩
            · exact Or.inl w
            · refine Or.inr ⟨w1, ?_⟩
              rw [List.count_cons_self]
              omega
          · left
            exact done_stays ops' q he
  obtain ⟨hl, hA | hB | hD⟩ := reach_good h
  · rw [hA.1.rs] at hs; cases hs
  · exact key ops' s hl hB.1 hB.2 h'
  · left
    exact done_stays ops' hD h'

/-- from the deactivation of the plugins on, the messages in the queue finish the shutdown -/
theorem drain_B {c : Cfg} {env : Env} (n : Nat) : ∀ {s : State}, SLg s → B c s none none → K c s → size c s ≤ n →
    ∃ k s', run c env s (List.replicate k .confirm) = .ok s' ∧ Done c s' := by
  induction n with
  | zero =>
    intro s hl h hk hn
    obtain ⟨s1, g1, g2, _, g3⟩ := confirm_B (env := env) h hk hl
    rcases g3 with ⟨_, _, q⟩ | q
    · omega
    · exact ⟨1, s1, by simp [run, step, g1], q⟩
  | succ n ih =>
    intro s hl h hk hn
    obtain ⟨s1, g1, g2, _, g3⟩ := confirm_B (env := env) h hk hl
    rcases g3 with ⟨q1, q2, q3⟩ | q
    · obtain ⟨k, s', e1, e2⟩ := ih g2 q1 q2 (by omega)
      refine ⟨k + 1, s', ?_, e2⟩
      rw [List.replicate_succ]
      simp only [run, step, g1]
      exact e1
    · exact ⟨1, s1, by simp [run, step, g1], q⟩

/-- children that have not confirmed -/
def unconf (s : State) : List Nat := s.kids.filter (fun a => decide (a ∉ s.conf))

/-- the operations that finish a shutdown: messages are delivered and children that were asked confirm -/
def Op.finishing : Op → Bool
  | .confirm => true
  | .kidConfirm _ => true
  | _ => false

/-- before the deactivation of the plugins the children can finish -/
theorem finish_A {c : Cfg} {env : Env} (he : ∀ lg, env lg = true) (u : Nat) : ∀ (q : Nat) {s : State}, SLg s → A c s none → N s →
    s.st = .shuttingDown → Waits s → (unconf s).length ≤ u → s.queue.length ≤ q →
    ∃ ops s', (∀ op, op ∈ ops → op.finishing = true) ∧ run c env s ops = .ok s' ∧ Done c s' := by
  induction u with
  | zero =>
    intro q
    induction q with
    | zero =>
      intro s hl h hn hst hk hu hq
      exfalso
      obtain ⟨a, ha⟩ := mem_of_ne_nil hk.1
      have hc : a ∈ s.conf := by
        apply Classical.byContradiction
        intro hc
        have : a ∈ unconf s := List.mem_filter.mpr ⟨ha, by simpa using hc⟩
        rw [List.length_eq_zero_iff.mp (Nat.le_zero.mp hu)] at this; cases this
      obtain ⟨x, hx, hxa⟩ := hn.ex a ha hc
      have h0 : a ≠ 0 := by rintro rfl; exact h.kz ha
      have hxu := hn.un x a hx hxa h0 hc
      rcases h.base.un x hxu (Or.inr ⟨((h.base.mp x).mp hx).1, np_of_map (by rw [hxa]; rfl)⟩) with z | z
      · rw [List.length_eq_zero_iff.mp (Nat.le_zero.mp hq)] at z; cases z
      · cases z
    | succ q ih =>
      intro s hl h hn hst hk hu hq
      obtain ⟨s1, e1, e2, e3⟩ := confirm_A (env := env) h hl hn (fun _ _ => hk)
      rcases e3 with ⟨w1, w2, w3⟩ | ⟨w1, w2⟩
      · have hu' : (unconf s1).length ≤ 0 := by
          have : (unconf s1).Sublist (unconf s) := by
            simp only [unconf, w2.conf]
            exact w2.kids.filter _
          have := this.length_le
          omega
        have hq' : s1.queue.length ≤ q := by rw [w2.queue, List.length_tail]; omega
        obtain ⟨ops, s', f1, f2, f3⟩ := ih e2 w1 w2.n (w2.st.trans hst) (w3 he (w2.st.trans hst)) hu' hq'
        refine ⟨.confirm :: ops, s', ?_, ?_, f3⟩
        · intro op hop
          rcases List.mem_cons.mp hop with z | z
          · rw [z]; rfl
          · exact f1 op z
        · simp only [run, step, e1]; exact f2
      · obtain ⟨k, s', f1, f2⟩ := drain_B (env := env) _ e2 w1 w2 (Nat.le_refl _)
        refine ⟨.confirm :: List.replicate k .confirm, s', ?_, ?_, f2⟩
        · intro op hop
          rcases List.mem_cons.mp hop with z | z
          · rw [z]; rfl
          · rw [(List.mem_replicate.mp z).2]; rfl
        · simp only [run, step, e1]; exact f1
  | succ u ih =>
    intro q s hl h hn hst hk hu hq
    by_cases hz : (unconf s).length ≤ u
    · exact ih q hl h hn hst hk hz hq
    · obtain ⟨a, ha⟩ := mem_of_ne_nil (l := unconf s) (by intro e; rw [e] at hz; simp at hz)
      have hak : a ∈ s.kids := (List.mem_filter.mp ha).1
      have hac : a ∉ s.conf := by simpa using (List.mem_filter.mp ha).2
      have haa := hk.2 a hak
      obtain ⟨s2, e2, b1, b2⟩ := kidConfirm_A (env := env) h hl hn hak haa hac (fun _ _ => hk.2)
      have hstep : step c env s (.kidConfirm a) = .ok s2 := by
        simp only [step]
        rw [if_pos ⟨hak, haa, hac⟩]
        exact e2
      rcases b2 with ⟨w1, w2, w3, w4, w5, w6⟩ | ⟨w1, w2⟩
      · have hst2 : s2.st = .shuttingDown := w3.trans hst
        have hu2 : (unconf s2).length ≤ u := by
          have hsub : (unconf s2).Sublist ((unconf s).filter (fun b => decide (b ≠ a))) := by
            simp only [unconf, List.filter_filter, w4]
            have : (fun b => decide (b ∉ a :: s.conf)) = (fun b => decide (b ≠ a) && decide (b ∉ s.conf)) := by
              funext b; simp [not_or, Bool.decide_and]
            rw [this]
            exact w5.filter _
          have h1 := hsub.length_le
          have h2 : ((unconf s).filter (fun b => decide (b ≠ a))).length < (unconf s).length := by
            refine List.length_filter_lt_length_iff_exists.mpr ⟨a, ha, by simp⟩
          omega
        obtain ⟨ops, s', f1, f2, f3⟩ := ih _ b1 w1 w2 hst2 (w6 he hst2) hu2 (Nat.le_refl _)
        refine ⟨.kidConfirm a :: ops, s', ?_, ?_, f3⟩
        · intro op hop
          rcases List.mem_cons.mp hop with z | z
          · rw [z]; rfl
          · exact f1 op z
        · simp only [run, hstep]; exact f2
      · obtain ⟨k, s', f1, f2⟩ := drain_B (env := env) _ b1 w1 w2 (Nat.le_refl _)
        refine ⟨.kidConfirm a :: List.replicate k .confirm, s', ?_, ?_, f2⟩
        · intro op hop
          rcases List.mem_cons.mp hop with z | z
          · rw [z]; rfl
          · rw [(List.mem_replicate.mp z).2]; rfl
        · simp only [run, hstep]; exact f1

/-- **C72**. When the other plugins agree, the shutdown goes on by itself: at any time the delivery of the messages and the
confirmations of children that have been asked finish it. No child has to be asked from outside and nobody has to call
`shutdown_continue`. -/
theorem C72_completes_alone (c : Cfg) (env : Env) (ops : List Op) (s : State) (h : run c env (State.init c) ops = .ok s)
    (hs : s.st = .shuttingDown) (he : ∀ lg, env lg = true) :
    ∃ ops' s', (∀ op, op ∈ ops' → op.finishing = true) ∧ run c env s ops' = .ok s' ∧ s'.st = .shutDown := by
  obtain ⟨hl, hA | hB | hD⟩ := reach_good h
  · obtain ⟨h1, hn, hw⟩ := hA
    obtain ⟨ops', s', f1, f2, f3⟩ := finish_A he _ _ hl h1 hn hs (hw he hs) (Nat.le_refl _) (Nat.le_refl _)
    exact ⟨ops', s', f1, f2, f3.st⟩
  · obtain ⟨k, s', f1, f2⟩ := drain_B (env := env) _ hl hB.1 hB.2 (Nat.le_refl _)
    exact ⟨_, s', fun op hop => by rw [(List.mem_replicate.mp hop).2]; rfl, f1, f2.st⟩
  · rw [hD.st] at hs; cases hs

/-- **C72**. The shutdown never gets stuck: whatever the other plugins answered before, if they agree from now on, then the delivery of
the messages and the confirmations of children that have been asked finish it, after at most one call of `shutdown_continue` (a
plugin that has refused has to make it, as `resources.cpp:78-82` does). -/
theorem C72_completes (c : Cfg) (env env' : Env) (ops : List Op) (s : State) (h : run c env (State.init c) ops = .ok s)
    (hs : s.st = .shuttingDown) (he : ∀ lg, env' lg = true) :
    ∃ first ops' s', (first = [] ∨ first = [.cont c.starter]) ∧ (∀ op, op ∈ ops' → op.finishing = true) ∧
      run c env' s (first ++ ops') = .ok s' ∧ s'.st = .shutDown := by
  obtain ⟨hl, hA | hB | hD⟩ := reach_good h
  · obtain ⟨h1, hn, _⟩ := hA
    obtain ⟨s1, e1, g1, g2⟩ := cont_good (env := env') h1 hl hn hs
    have hstep : step c env' s (.cont c.starter) = .ok s1 := by
      simp only [step]
      rw [if_pos]
      · exact e1
      · refine ⟨hs, starter_lt c, h1.act.1 _ (starter_lt c) (starter_ne_fgn c), starter_ne_life c, ?_, starter_ne_cm c⟩
        have := c.hcm1; have := c.hcm2
        simp only [Cfg.starter, Cfg.shut]; omega
    have fin : ∃ ops s', (∀ op, op ∈ ops → op.finishing = true) ∧ run c env' s1 ops = .ok s' ∧ Done c s' := by
      rcases g2 with ⟨q1, q2, q3⟩ | ⟨q1, q2⟩ | q
      · obtain ⟨s2, z1, z2, z3⟩ := cont_A (env := env') h1 hs
        have z1 : sc c env' depth s = .ok s2 := z1
        rw [z1] at e1
        obtain rfl := Except.ok.inj e1
        have hst : s2.st = .shuttingDown := by
          rcases z3 with ⟨_, w, _⟩ | ⟨w, _⟩
          · exact w
          · exact w.st
        exact finish_A he _ _ g1 q1 q2 hst (q3 he hst) (Nat.le_refl _) (Nat.le_refl _)
      · obtain ⟨k, s', f1, f2⟩ := drain_B (env := env') _ g1 q1 q2 (Nat.le_refl _)
        exact ⟨_, s', fun op hop => by rw [(List.mem_replicate.mp hop).2]; rfl, f1, f2⟩
      · exact ⟨[], s1, by simp, rfl, q⟩
    obtain ⟨ops', s', f1, f2, f3⟩ := fin
    refine ⟨[.cont c.starter], ops', s', Or.inr rfl, f1, ?_, f3.st⟩
    simp only [List.cons_append, List.nil_append, run, hstep]; exact f2
  · obtain ⟨k, s', f1, f2⟩ := drain_B (env := env') _ hl hB.1 hB.2 (Nat.le_refl _)
    exact ⟨[], _, s', Or.inl rfl, fun op hop => by rw [(List.mem_replicate.mp hop).2]; rfl, f1, f2.st⟩
  · rw [hD.st] at hs; cases hs

end Verif.SupTeardown
