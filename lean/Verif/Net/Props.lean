import Verif.Net.Listed

/-!
# C04, C05, C06, C07, C54: delivery between localities
-/

namespace Verif.Net
open Verif

/-! ## auxiliary facts about lists -/

theorem sublist_of_sorted_subset : ∀ (b a : List Nat), a.Pairwise (· < ·) → b.Pairwise (· < ·) → (∀ x ∈ a, x ∈ b) → a.Sublist b := by
  intro b
  induction b with
  | nil =>
    intro a _ _ h
    cases a with
    | nil => exact .slnil
    | cons x a => exact absurd (h x (by simp)) (by simp)
  | cons y b ih =>
    intro a ha hb h
    cases a with
    | nil => simp
    | cons x a =>
      have ha' := List.pairwise_cons.1 ha
      have hb' := List.pairwise_cons.1 hb
      rcases List.mem_cons.1 (h x (by simp)) with rfl | hx
      · apply List.Sublist.cons_cons
        refine ih a ha'.2 hb'.2 ?_
        intro z hz
        rcases List.mem_cons.1 (h z (by simp [hz])) with rfl | hz'
        · exact absurd (ha'.1 z hz) (by omega)
        · exact hz'
      · apply List.Sublist.cons
        refine ih (x :: a) ha hb'.2 ?_
        intro z hz
        rcases List.mem_cons.1 (h z hz) with rfl | hz'
        · rcases List.mem_cons.1 hz with rfl | hz2
          · exact hx
          · have h1 := ha'.1 z hz2
            have h2 := hb'.1 x hx
            omega
        · exact hz'

theorem sentTo_uids (c : Cfg) (l d : Nat) (log : List Ev) : ((sentTo c l d log).map (·.uid)).Sublist (sentUids log) := by
  simp only [sentTo, sentUids]
  generalize log.reverse = lg
  induction lg with
  | nil => simp
  | cons e lg ih =>
    cases e with
    | sent m =>
      simp only [List.filterMap_cons]
      by_cases hc : m.src.map c.locA = some l ∧ m.dest = d
      · simp only [if_pos hc, List.map_cons]; exact ih.cons_cons _
      · simp only [if_neg hc]; exact ih.cons _
    | took _ _ => simpa [List.filterMap_cons] using ih
    | exec _ _ _ => simpa [List.filterMap_cons] using ih

theorem sentBy_uids (a d : Nat) (log : List Ev) : (sentBy a d log).Sublist (sentUids log) := by
  simp only [sentBy, sentUids]
  generalize log.reverse = lg
  induction lg with
  | nil => simp
  | cons e lg ih =>
    cases e with
    | sent m =>
      simp only [List.filterMap_cons]
      by_cases hc : m.src = some a ∧ m.dest = d
      · simp only [if_pos hc]; exact ih.cons_cons _
      · simp only [if_neg hc]; exact ih.cons _
    | took _ _ => simpa [List.filterMap_cons] using ih
    | exec _ _ _ => simpa [List.filterMap_cons] using ih

theorem seen_execU (c : Cfg) (h : Handler) (a d : Nat) (log : List Ev) : (seen h a d log).Sublist (execU c h (c.locA a) d log) := by
  simp only [seen, execU]
  generalize log.reverse = lg
  induction lg with
  | nil => simp
  | cons e lg ih =>
    cases e with
    | exec l h' o =>
      simp only [List.filterMap_cons]
      by_cases hc : h' = h ∧ o.src = some a ∧ o.dest = d
      · rw [if_pos hc]
        obtain ⟨h1, h2, h3⟩ := hc
        rw [if_pos ⟨h1, by rw [h2]; rfl, h3⟩]
        exact ih.cons_cons _
      · rw [if_neg hc]
        by_cases hc' : h' = h ∧ o.src.map c.locA = some (c.locA a) ∧ o.dest = d
        · rw [if_pos hc']; exact ih.cons _
        · rw [if_neg hc']; exact ih
    | sent _ => simpa [List.filterMap_cons] using ih
    | took _ _ => simpa [List.filterMap_cons] using ih

theorem mem_seen {h : Handler} {a d u : Nat} {log : List Ev} (hm : u ∈ seen h a d log) : ∃ l o, .exec l h o ∈ log ∧ o.src = some a ∧ o.dest = d ∧ o.uid = u := by
  simp only [seen, List.mem_filterMap, List.mem_reverse] at hm
  obtain ⟨e, he, h2⟩ := hm
  cases e with
  | exec l h' o =>
    simp only at h2
    by_cases hc : h' = h ∧ o.src = some a ∧ o.dest = d
    · rw [if_pos hc] at h2
      simp only [Option.some.injEq] at h2
      obtain ⟨rfl, h3, h4⟩ := hc
      exact ⟨l, o, he, h3, h4, h2⟩
    · rw [if_neg hc] at h2; simp at h2
  | sent _ => simp at h2
  | took _ _ => simp at h2

/-- all messages sent from `l` to `d` are dispatched, under way, or not yet forwarded -/
theorem tookU_sentTo (c : Cfg) (s : State) (hi : InvQ c s) (l d : Nat) : (tookU c l d s.log).Sublist ((sentTo c l d s.log).map (·.uid)) := by
  by_cases hl : l = c.locD d
  · subst hl
    have h1 : tookTo c (c.locD d) d s.log = (tookFrom c (c.locD d) s.log).filter (fun m => decide (m.dest = d)) := by
      simp only [tookTo, tookFrom, List.filter_filterMap]
      congr 1
      funext e
      cases e with
      | took k m =>
        simp only
        by_cases e1 : k = c.locD d ∧ m.src.map c.locA = some (c.locD d)
        · by_cases e2 : m.dest = d
          · simp [e1, e2, Option.filter]
          · simp [e1, e2, Option.filter]
        · rw [if_neg (fun hh => e1 ⟨hh.1, hh.2.1⟩), if_neg e1]; rfl
      | sent _ => rfl
      | exec _ _ _ => rfl
    have h2 : sentTo c (c.locD d) d s.log = (sentFrom c (c.locD d) s.log).filter (fun m => decide (m.dest = d)) := by
      simp only [sentTo, sentFrom, List.filter_filterMap]
      congr 1
      funext e
      cases e with
      | sent m =>
        simp only
        by_cases e1 : m.src.map c.locA = some (c.locD d)
        · by_cases e2 : m.dest = d
          · simp [e1, e2, Option.filter]
          · simp [e1, e2, Option.filter]
        · rw [if_neg (fun hh => e1 hh.1), if_neg e1]; rfl
      | took _ _ => rfl
      | exec _ _ _ => rfl
    rw [tookU, h1, h2, hi.fifoL, List.filter_append]
    exact (List.sublist_append_left _ _).map _
  · rw [tookU, hi.fifo l d hl, List.append_assoc, List.append_assoc]
    exact (List.sublist_append_left _ _).map _

/-! ## C04 -/

/-- **C04.** At every moment of every execution: what was sent inside of a locality is what its loop has
already taken from the queue, in this order, followed by what is waiting in the queue. The identities
increase in the order of sending, so that nothing is taken twice. -/
theorem C04_dispatch_order (c : Cfg) (env : Env) (ops : List Op) (s : State) (hr : run c env .init ops = .ok s) (l : Nat) :
    sentFrom c l s.log = tookFrom c l s.log ++ (s.queue l).filter (fun m => decide (m.src.map c.locA = some l)) ∧
    ((tookFrom c l s.log).map (·.uid)).Pairwise (· < ·) := by
  have hi := reach c env ops s hr
  have h1 := hi.Q.fifoL l
  refine ⟨h1, ?_⟩
  have hsub : ((sentFrom c l s.log).map (·.uid)).Sublist (sentUids s.log) := by
    simp only [sentFrom, sentUids]
    generalize s.log.reverse = lg
    induction lg with
    | nil => simp
    | cons e lg ih =>
      cases e with
      | sent m =>
        simp only [List.filterMap_cons]
        by_cases hc : m.src.map c.locA = some l
        · simp only [if_pos hc, List.map_cons]; exact ih.cons_cons _
        · simp only [if_neg hc]; exact ih.cons _
      | took _ _ => simpa [List.filterMap_cons] using ih
      | exec _ _ _ => simpa [List.filterMap_cons] using ih
  refine List.Pairwise.sublist ?_ hi.Q.uids
  refine List.Sublist.trans ?_ hsub
  rw [h1]
  exact (List.sublist_append_left _ _).map _

/-- every step keeps the log and lets the queues only grow at the end, except for the message that is
taken from the front -/
theorem step_queue (c : Cfg) (env : Env) (s s' : State) (op : Op) (hi : Inv c s) (he : step c env s op = .ok s') (l : Nat) :
    (∀ e ∈ s.log, e ∈ s'.log) ∧
    ((∃ m rest q, op = .take l ∧ s.queue l = m :: rest ∧ s'.queue l = rest ++ q ∧ .took l m ∈ s'.log) ∨
      ((op ≠ .take l ∨ s.queue l = []) ∧ ∃ q, s'.queue l = s.queue l ++ q)) := by
  cases op with
  | take k =>
    simp only [step] at he
    cases hq : s.queue k with
    | nil =>
      simp only [take, hq, Except.ok.injEq] at he
      subst he
      refine ⟨fun _ h => h, .inr ⟨?_, [], by simp⟩⟩
      by_cases e : k = l
      · subst e; exact .inr hq
      · left; simpa using e
    | cons m rest =>
      have key : (∀ e ∈ s.log, e ∈ s'.log) ∧ .took k m ∈ s'.log ∧ ∀ j, ∃ q, s'.queue j = upd s.queue k rest j ++ q := by
        by_cases hl : c.locD m.dest = k
        · cases hb : m.body with
          | user ty => exact (take_user c env k s s' m rest ty hi.Q hq hl hb he).2.2.2
          | call h o =>
            obtain ⟨h1, h2⟩ := take_call c env k s s' m rest h o hq hl hb he
            by_cases hlv : Live s h o.dest
            · have := h1 hlv
              exact ⟨fun e he => this.sub e (by simp [he]), this.sub _ (by simp), this.grow⟩
            · rw [h2 hlv]
              exact ⟨fun e he => by simp [popped, he], by simp [popped], fun j => ⟨[], by simp [popped]⟩⟩
          | _ =>
            obtain ⟨_, _, h3, h4, h5, _⟩ := take_other c env k s s' m rest hq (.inr ⟨by simp [hb], by simp [hb]⟩) he (call_here hi hq)
            exact ⟨h3, h4, h5⟩
        · obtain ⟨_, _, h3, h4, h5, _⟩ := take_other c env k s s' m rest hq (.inl hl) he (call_here hi hq)
          exact ⟨h3, h4, h5⟩
      refine ⟨key.1, ?_⟩
      obtain ⟨q, e⟩ := key.2.2 l
      by_cases hk : k = l
      · subst hk
        left
        exact ⟨m, rest, q, rfl, hq, by rw [e, upd_self], key.2.1⟩
      · right
        exact ⟨.inl (by simpa using hk), q, by rw [e, upd_ne _ _ _ _ (Ne.symm hk)]⟩
  | poll k =>
    simp only [step, Except.ok.injEq] at he
    subst he
    simp only [poll]
    cases hq : s.inb k with
    | nil => exact ⟨fun _ h => h, .inr ⟨.inl (by simp), [], by simp⟩⟩
    | cons m rest =>
      refine ⟨fun _ h => h, .inr ⟨.inl (by simp), ?_⟩⟩
      by_cases hk : l = k
      · subst hk; exact ⟨[m], upd_self _ _ _⟩
      · exact ⟨[], by simp only; rw [upd_ne _ _ _ _ hk]; simp⟩
  | act a acts =>
    have := quiet_runActs c a acts s s' he
    exact ⟨this.sub, .inr ⟨.inl (by simp), this.grow l⟩⟩
  | outside dest ty =>
    simp only [step, Except.ok.injEq] at he
    subst he
    exact ⟨fun _ h => h, .inr ⟨.inl (by simp), [], by simp [enqueue]⟩⟩
  | life a alive st =>
    simp only [step, Except.ok.injEq] at he
    subst he
    exact ⟨fun _ h => h, .inr ⟨.inl (by simp), [], by simp⟩⟩
  | dropPlugin a =>
    simp only [step, Except.ok.injEq] at he
    subst he
    exact ⟨fun _ h => h, .inr ⟨.inl (by simp), [], by simp⟩⟩

theorem progress_aux (c : Cfg) (env : Env) (l : Nat) (m : Msg) (post : List Msg) : ∀ (ops : List Op) (s s' : State) (pre : List Msg), Inv c s →
    s.queue l = pre ++ m :: post → run c env s ops = .ok s' → pre.length < ops.countP (fun op => decide (op = .take l)) → .took l m ∈ s'.log := by
  intro ops
  induction ops generalizing post with
  | nil => intro s s' pre _ _ _ hc; simp at hc
  | cons op ops ih =>
    intro s s' pre hi hq he hc
    simp only [run] at he
    have hg := step_good c env s op hi
    cases hs : step c env s op with
    | error e => rw [hs] at he; simp at he
    | ok s1 =>
      rw [hs] at he hg
      obtain ⟨hlog, hcase⟩ := step_queue c env s s1 op hi hs l
      have keep : ∀ (ops : List Op) (s0 : State), Inv c s0 → run c env s0 ops = .ok s' → ∀ e ∈ s0.log, e ∈ s'.log := by
        intro ops
        induction ops with
        | nil => intro s0 _ he e hm; simp only [run, Except.ok.injEq] at he; subst he; exact hm
        | cons op ops ih2 =>
          intro s0 hi0 he0 e hm
          simp only [run] at he0
          have hg0 := step_good c env s0 op hi0
          cases hs0 : step c env s0 op with
          | error e => rw [hs0] at he0; simp at he0
          | ok s2 =>
            rw [hs0] at he0 hg0
            exact ih2 s2 hg0 he0 e ((step_queue c env s0 s2 op hi0 hs0 l).1 e hm)
      rcases hcase with ⟨m', rest, q, rfl, hq', hq1, htook⟩ | ⟨hne, q, hq1⟩
      · cases pre with
        | nil =>
          rw [hq] at hq'
          simp only [List.nil_append, List.cons.injEq] at hq'
          obtain ⟨rfl, _⟩ := hq'
          exact keep ops s1 hg he _ htook
        | cons x pre =>
          rw [hq] at hq'
          simp only [List.cons_append, List.cons.injEq] at hq'
          obtain ⟨_, hrest⟩ := hq'
          refine ih (post ++ q) s1 s' pre hg ?_ he ?_
          · rw [hq1, ← hrest]; simp
          · simp only [List.countP_cons, decide_true, if_true, List.length_cons] at hc; omega
      · have hne' : op ≠ .take l := by
          rcases hne with h | h
          · exact h
          · rw [hq] at h; simp at h
        refine ih (post ++ q) s1 s' pre hg ?_ he ?_
        · rw [hq1, hq]; simp
        · simpa [List.countP_cons, hne'] using hc

/-- **C04, progress.** A message with `k` messages before it in the queue of its locality has been taken
after `k + 1` further turns of the loop, whatever happens in between: nothing overtakes it and it is not
lost. -/
theorem C04_progress (c : Cfg) (env : Env) (ops0 ops : List Op) (s s' : State) (hr : run c env .init ops0 = .ok s) (l : Nat) (m : Msg)
    (pre post : List Msg) (hq : s.queue l = pre ++ m :: post) (he : run c env s ops = .ok s')
    (hc : pre.length < ops.countP (fun op => decide (op = .take l))) : .took l m ∈ s'.log :=
  progress_aux c env l m post ops s s' pre (reach c env ops0 s hr) hq he hc

/-! ## C05 -/

/-- **C05, order.** What a handler has seen of the messages from actor `a` to address `d` is a part of what
`a` has sent to `d`, in the same order, nothing twice and nothing that was not sent, in whatever
localities the two actors and the address live. -/
theorem C05_order_and_once (c : Cfg) (env : Env) (ops : List Op) (s : State) (hr : run c env .init ops = .ok s) (h : Handler) (a d : Nat) :
    (seen h a d s.log).Sublist (sentBy a d s.log) ∧ (sentBy a d s.log).Nodup := by
  have hi := reach c env ops s hr
  have ho := reachO c env ops s hr
  have hby : (sentBy a d s.log).Pairwise (· < ·) := List.Pairwise.sublist (sentBy_uids a d s.log) hi.Q.uids
  refine ⟨?_, hby.imp (fun hlt => Nat.ne_of_lt hlt)⟩
  apply sublist_of_sorted_subset _ _ _ hby
  · intro u hu
    obtain ⟨l, o, he, h1, h2, h3⟩ := mem_seen hu
    have := ho.ex l h o he a h1
    simp only [sentBy, List.mem_filterMap, List.mem_reverse]
    exact ⟨_, this, by simp [h1, h2, h3]⟩
  · have h1 : (seen h a d s.log).Sublist (pend c s h (c.locA a) d) := by
      refine (seen_execU c h a d s.log).trans ?_
      simp only [pend, List.append_assoc]
      exact List.sublist_append_left _ _
    exact List.Pairwise.sublist (((h1.trans (hi.E.sub h (c.locA a) d)).trans (tookU_sentTo c s hi.Q _ d)).trans (sentTo_uids c _ d s.log)) hi.Q.uids

/-- **C05, nothing is lost on the way.** What was sent from one locality to an address of another one is
what was dispatched there, followed by what is in the queue of the receiving locality, then in its inbound
queue, then in the queue of the sending locality. -/
theorem C05_in_transit (c : Cfg) (env : Env) (ops : List Op) (s : State) (hr : run c env .init ops = .ok s) (l d : Nat) (hl : l ≠ c.locD d) :
    sentTo c l d s.log = tookTo c l d s.log ++
      (s.queue (c.locD d)).filter (fun m => decide (m.src.map c.locA = some l ∧ m.dest = d)) ++
      (s.inb (c.locD d)).filter (fun m => decide (m.src.map c.locA = some l ∧ m.dest = d)) ++
      (s.queue l).filter (fun m => decide (m.src.map c.locA = some l ∧ m.dest = d)) :=
  (reach c env ops s hr).Q.fifo l d hl

/-- **C05, dispatch is complete.** The turn of the loop that takes a user message for an address of its
locality runs every handler of the locality that is subscribed to the address, once, in the order of the
subscriptions, and hands every foreign subscriber over to the locality of the subscriber, once. -/
theorem C05_dispatch_complete (c : Cfg) (env : Env) (ops : List Op) (s s' : State) (hr : run c env .init ops = .ok s) (l : Nat)
    (m : Msg) (rest : List Msg) (ty : Nat) (hq : s.queue l = m :: rest) (hl : c.locD m.dest = l) (hb : m.body = .user ty)
    (he : step c env s (.take l) = .ok s') :
    execs s'.log = execs s.log ++ (s.subs m.dest ty).int.map (fun h => (l, h, ⟨m.uid, m.src, m.dest, ty⟩)) ∧
    (∀ k, ∃ q, s'.inb k = s.inb k ++ q ∧
      wraps q = ((s.subs m.dest ty).ext.filter (fun h => decide (c.locA h.actor = k))).map (fun h => (h, ⟨m.uid, m.src, m.dest, ty⟩))) ∧
    (∀ h, h ∈ (s.subs m.dest ty).int ↔ h.ty = ty ∧ c.locA h.actor = l ∧ (s.points.find (h, m.dest)).isSome) ∧
    (s.subs m.dest ty).int.Nodup ∧ (s.subs m.dest ty).ext.Nodup := by
  have hi := reach c env ops s hr
  obtain ⟨_, h2, h3, _⟩ := take_user c env l s s' m rest ty hi.Q hq hl hb he
  refine ⟨h2, h3, ?_, hi.T.intN _ _, hi.T.extN _ _⟩
  intro h
  constructor
  · intro hm
    obtain ⟨rfl, h5⟩ := hi.T.intTy h _ _ hm
    exact ⟨rfl, by rw [← h5, hl], (hi.T.intIff h m.dest h5).1 hm⟩
  · rintro ⟨rfl, h5, h6⟩
    exact (hi.T.intIff h m.dest (by rw [hl, h5])).2 h6

/-! ## C06 -/

/-- **C06.** Every handler that was ever run was run by the loop of the locality of its actor. -/
theorem C06_own_locality (c : Cfg) (env : Env) (ops : List Op) (s : State) (hr : run c env .init ops = .ok s) (l : Nat) (h : Handler) (o : Orig)
    (he : (l, h, o) ∈ execs s.log) : l = c.locA h.actor := by
  simp only [execs, List.mem_filterMap, List.mem_reverse] at he
  obtain ⟨e, h1, h2⟩ := he
  cases e with
  | exec l' h' o' =>
    simp only [Option.some.injEq, Prod.mk.injEq] at h2
    obtain ⟨rfl, rfl, rfl⟩ := h2
    exact (reach c env ops s hr).E.loc _ _ _ h1
  | sent _ => simp at h2
  | took _ _ => simp at h2

/-! ## C07 -/

/-- **C07.** A wrapped call that reaches the front of the queue is executed exactly if the actor is alive,
not shut down and has the subscription in the list of its `lifetime_plugin_t`; otherwise it is dropped and nothing else changes. -/
theorem C07_executed_iff_live (c : Cfg) (env : Env) (ops : List Op) (s s' : State) (hr : run c env .init ops = .ok s) (l : Nat)
    (m : Msg) (rest : List Msg) (h : Handler) (o : Orig) (hq : s.queue l = m :: rest) (hb : m.body = .call h o)
    (he : step c env s (.take l) = .ok s') :
    (s.alive h.actor = true ∧ (s.st h.actor).rank < AState.shutDown.rank ∧ (h, o.dest) ∈ s.listed.map (·.1) →
      execs s'.log = execs s.log ++ [(l, h, o)]) ∧
    (¬ (s.alive h.actor = true ∧ (s.st h.actor).rank < AState.shutDown.rank ∧ (h, o.dest) ∈ s.listed.map (·.1)) →
      s' = { s with queue := upd s.queue l rest, log := .took l m :: s.log }) := by
  have hi := reach c env ops s hr
  have hl := (hi.E.placeQ l m h o (by rw [hq]; simp) hb).2.2
  obtain ⟨h1, h2⟩ := take_call c env l s s' m rest h o hq hl hb he
  refine ⟨fun hlv => ?_, fun hlv => h2 hlv⟩
  rw [(h1 hlv).ex, execs_exec, execs_took]

/-- **C07, at most once.** -/
theorem C07_at_most_once (c : Cfg) (env : Env) (ops : List Op) (s : State) (hr : run c env .init ops = .ok s) (h : Handler) (a d : Nat) :
    (seen h a d s.log).Nodup :=
  List.Pairwise.sublist (C05_order_and_once c env ops s hr h a d).1 (C05_order_and_once c env ops s hr h a d).2

/-- **C07, for all executions.** Whatever a single step of the system executes: the handler had the
subscription when the step began, and a foreign one belonged to an actor that was alive and not shut
down. Full claim: the first alternative always. What is missing is the second one, which is real: the
handler of another locality may run although its unsubscription was confirmed already, see
`C07_stale_counterexample`. -/
theorem C07_only_subscribed_partial (c : Cfg) (env : Env) (ops : List Op) (s s' : State) (hr : run c env .init ops = .ok s) (op : Op)
    (he : step c env s op = .ok s') :
    ∃ new, execs s'.log = execs s.log ++ new ∧ ∀ l h o, (l, h, o) ∈ new →
      ((s.points.find (h, o.dest)).isSome = true ∨ c.locD o.dest ≠ c.locA h.actor ∧ Undone s.log h o.dest) ∧
      (c.locD o.dest ≠ c.locA h.actor → s.alive h.actor = true ∧ (s.st h.actor).rank < AState.shutDown.rank) := by
  have hi := reach c env ops s hr
  cases op with
  | take l =>
    simp only [step] at he
    cases hq : s.queue l with
    | nil =>
      simp only [take, hq, Except.ok.injEq] at he
      subst he; exact ⟨[], by simp, by simp⟩
    | cons m rest =>
      by_cases hl : c.locD m.dest = l
      · cases hb : m.body with
        | user ty =>
          obtain ⟨_, h2, _⟩ := take_user c env l s s' m rest ty hi.Q hq hl hb he
          refine ⟨_, h2, ?_⟩
          intro k h o hm
          simp only [List.mem_map, Prod.mk.injEq] at hm
          obtain ⟨h', hm, rfl, rfl, rfl⟩ := hm
          obtain ⟨rfl, h5⟩ := hi.T.intTy h' _ _ hm
          exact ⟨.inl ((hi.T.intIff h' m.dest h5).1 hm), fun hx => absurd h5 hx⟩
        | call h o =>
          obtain ⟨h1, h2⟩ := take_call c env l s s' m rest h o hq hl hb he
          by_cases hlv : Live s h o.dest
          · refine ⟨[(l, h, o)], by rw [(h1 hlv).ex, execs_exec, execs_took], ?_⟩
            intro k h' o' hm
            simp only [List.mem_singleton, Prod.mk.injEq] at hm
            obtain ⟨rfl, rfl, rfl⟩ := hm
            obtain ⟨e, he1, he2⟩ := List.mem_map.1 hlv.2.2
            have hu := reachL c env ops s hr e he1
            rw [he2] at hu
            refine ⟨?_, fun _ => ⟨hlv.1, hlv.2.1⟩⟩
            rcases hu with hu | hu
            · exact .inl hu
            · exact .inr ⟨(hi.E.placeQ k m h' o' (by rw [hq]; simp) hb).2.1, hu⟩
          · rw [h2 hlv]; exact ⟨[], by simp [popped, execs_took], by simp⟩
        | _ =>
          obtain ⟨_, h2, _⟩ := take_other c env l s s' m rest hq (.inr ⟨by simp [hb], by simp [hb]⟩) he (call_here hi hq)
          exact ⟨[], by simp [h2], by simp⟩
      · obtain ⟨_, h2, _⟩ := take_other c env l s s' m rest hq (.inl hl) he (call_here hi hq)
        exact ⟨[], by simp [h2], by simp⟩
  | poll l =>
    simp only [step, Except.ok.injEq] at he
    subst he
    simp only [poll]
    cases s.inb l <;> exact ⟨[], by simp, by simp⟩
  | act a l => exact ⟨[], by simp [(quiet_runActs c a l s s' he).ex], by simp⟩
  | outside dest ty =>
    simp only [step, Except.ok.injEq] at he
    subst he; exact ⟨[], by simp [enqueue], by simp⟩
  | life a alive st =>
    simp only [step, Except.ok.injEq] at he
    subst he; exact ⟨[], by simp, by simp⟩
  | dropPlugin a =>
    simp only [step, Except.ok.injEq] at he
    subst he; exact ⟨[], by simp, by simp⟩

/-! ## C54 -/

/-- **C54, no fault.** Whatever the actors do, no step of the subscription protocol fails an assertion or
dereferences an invalid iterator: in particular every `commit_unsubscription` finds the entry it removes.
(The outcome `anon`, an anonymous subscription to a foreign address being undone, is the exception, see
`C54_anonymous_counterexample`.) -/
theorem C54_no_fault (c : Cfg) (env : Env) (ops : List Op) : run c env .init ops ≠ .error .fault := by
  intro h
  have := run_good c env ops .init (inv_init c)
  rw [h] at this
  exact this rfl

/-- **C54, agreement.** When no protocol message for a subscription to a foreign address is under way, the
remote locality has the entry exactly if the subscriber has the subscription, and then exactly once. -/
theorem C54_agreement (c : Cfg) (env : Env) (ops : List Op) (s : State) (hr : run c env .init ops = .ok s) (h : Handler) (addr : Nat)
    (hx : c.locD addr ≠ c.locA h.actor)
    (hn : ∀ l m, m ∈ s.queue l ∨ m ∈ s.inb l → m.body ≠ .extSub h addr ∧ m.body ≠ .commit h addr) :
    (h ∈ (s.subs addr h.ty).ext ↔ (s.points.find (h, addr)).isSome = true) ∧ (s.subs addr h.ty).ext.Nodup := by
  have hi := reach c env ops s hr
  refine ⟨?_, hi.T.extN _ _⟩
  have hz : ∀ q : List Msg, (∀ m ∈ q, m.body ≠ .extSub h addr ∧ m.body ≠ .commit h addr) → Verif.Net.ops h addr q = [] := by
    intro q hq
    simp only [Verif.Net.ops, List.filterMap_eq_nil_iff]
    intro m hm
    cases hp : protoOp h addr m with
    | none => rfl
    | some b =>
      rcases (protoOp_proto hp).1 with h1 | h1
      · exact absurd h1 (hq m hm).1
      · exact absurd h1 (hq m hm).2
  have hch := hi.P.chain h addr hx
  simp only [pipe, hz _ (fun m hm => hn _ m (.inl hm)), hz _ (fun m hm => hn _ m (.inr hm)), List.append_nil, Chain] at hch
  rw [← hch]
  simp only [decide_eq_true_eq]
  exact ⟨fun hm => (hi.T.extTy h addr _ hm).2, fun hm => (hi.T.extIff h addr hm).1⟩

/-- **C54, local subscriptions.** For an address of its own locality a handler is in the table exactly while
its actor has the subscription. -/
theorem C54_local (c : Cfg) (env : Env) (ops : List Op) (s : State) (hr : run c env .init ops = .ok s) (h : Handler) (addr : Nat)
    (hx : c.locD addr = c.locA h.actor) :
    (h ∈ (s.subs addr h.ty).int ↔ (s.points.find (h, addr)).isSome = true) ∧ (s.subs addr h.ty).int.Nodup :=
  ⟨(reach c env ops s hr).T.intIff h addr hx, (reach c env ops s hr).T.intN _ _⟩

/-! ## concrete cases -/

/-- ten actors and addresses per locality -/
def exCfg : Cfg where
  locA a := a / 10
  locD d := d / 10
  addrOf a := a
  supAddr l := 10 * l
  supActor l := 10 * l
  hOf _ := rfl
  hSup l := by simp
  hAct l := by simp

/-- handler of actor 11 (locality 1) for messages of type 7 -/
def exH : Handler := ⟨11, 0, 7⟩
/-- handler of actor 3 (locality 0) for messages of type 7 -/
def exG : Handler := ⟨3, 0, 7⟩

/-- actor 11 subscribes to address 3 of locality 0, actor 3 too, actor 22 of locality 2 sends two messages
there; every message travels from locality 2 to 0 and the wrapped calls from 0 to 1 -/
def exOps : List Op :=
  [.life 11 true .operational, .act 11 [.subscribe exH 3 false], .act 3 [.subscribe exG 3 false],
   .take 1, .poll 0, .take 0, .take 0, .act 22 [.send 3 7, .send 3 7], .take 2, .take 2, .poll 0, .poll 0, .take 0, .take 0, .take 0,
   .poll 1, .poll 1, .poll 1, .take 1, .take 1, .take 1]

/-- the state reached, and what the two handlers have seen -/
example : ∃ s, run exCfg (fun _ => []) .init exOps = .ok s ∧ seen exH 22 3 s.log = [3, 4] ∧ seen exG 22 3 s.log = [3, 4] ∧
    sentBy 22 3 s.log = [3, 4] ∧ (execs s.log).map (fun x => (x.1, x.2.1)) = [(0, exG), (0, exG), (1, exH), (1, exH)] ∧
    sentFrom exCfg 2 s.log = tookFrom exCfg 2 s.log ∧ exH ∈ (s.subs 3 7).ext := by
  refine ⟨_, rfl, by decide, by decide, by decide, by decide, by decide, by decide⟩

/-- an actor that is shut down before the wrapped call arrives: nothing is executed -/
example : ∃ s, run exCfg (fun _ => []) .init
      [.life 11 true .operational, .act 11 [.subscribe exH 3 false], .take 1, .poll 0, .take 0, .act 3 [.send 3 7], .take 0, .take 0,
       .life 11 true .shutDown, .poll 1, .poll 1, .take 1, .take 1] = .ok s ∧ execs s.log = [] ∧ s.queue 1 = [] ∧ s.inb 1 = [] :=
  ⟨_, rfl, by decide, by decide, by decide⟩

/-- **C07, counterexample.** Actor 11 has a plugin's subscription to address 3 of another locality. A message
for it is wrapped and on its way when actor 11 unsubscribes; the unsubscription is confirmed (both the plugin
and `on_unsubscription_external` are done with it) before the wrapped call arrives, and yet the handler runs. -/
theorem C07_stale_counterexample : ∃ s s',
    run exCfg (fun _ => []) .init
      [.life 11 true .operational, .act 11 [.subscribe exH 3 false], .take 1, .poll 0, .take 0, .take 0, .poll 1, .take 1,
       .act 3 [.send 3 7], .take 0, .act 11 [.unsubscribe exH 3], .take 1, .poll 1] = .ok s ∧
    Undone s.log exH 3 ∧ s.points.find (exH, 3) = none ∧
    run exCfg (fun _ => []) s [.take 1, .take 1] = .ok s' ∧ (execs s'.log).map (fun x => (x.1, x.2.1)) = [(1, exH)] :=
  ⟨_, _, rfl, ⟨1, ⟨4, some 11, 11, .unsub exH 3⟩, by decide, rfl⟩, by decide, rfl, by decide⟩

/-- subscription, unsubscription and subscription again, all under way at the same time, end in agreement -/
example : ∃ s, run exCfg (fun _ => []) .init
      [.act 11 [.subscribe exH 3 false, .unsubscribe exH 3], .take 1, .take 1, .act 11 [.subscribe exH 3 false], .take 1, .take 1,
       .poll 0, .poll 0, .poll 0, .take 0, .take 0, .take 0] = .ok s ∧ (s.subs 3 7).ext = [exH] ∧ (s.points.find (exH, 3)).isSome = true :=
  ⟨_, rfl, by decide, by decide⟩

/-- **C54, counterexample for anonymous subscriptions.** An actor subscribes with
`actor_base_t::subscribe` to an address of another locality and unsubscribes later: the confirmation of
the unsubscription reaches a plugin that does not know the subscription and the assertion in
`plugin_base.cpp:91` fails. -/
theorem C54_anonymous_counterexample : run exCfg (fun _ => []) .init
      [.act 11 [.subscribe exH 3 true], .take 1, .poll 0, .take 0, .take 0, .poll 1, .take 1, .act 11 [.unsubscribe exH 3], .take 1] = .error .anon := rfl

end Verif.Net
