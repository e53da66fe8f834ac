import Verif.Net.Good

/-!
# Executions are of messages that were sent; what exactly one dispatch does
-/

namespace Verif.Net
open Verif

theorem execs_exec (l : Nat) (h : Handler) (o : Orig) (log : List Ev) : execs (.exec l h o :: log) = execs log ++ [(l, h, o)] := by
  simp [execs, List.filterMap_append]
theorem execs_sent (m : Msg) (log : List Ev) : execs (.sent m :: log) = execs log := by simp [execs, List.filterMap_append]
theorem execs_took (l : Nat) (m : Msg) (log : List Ev) : execs (.took l m :: log) = execs log := by simp [execs, List.filterMap_append]

/-- messages of the queues that have a sender were sent -/
theorem sent_of_sentFrom {c : Cfg} {l : Nat} {m : Msg} {log : List Ev} (h : m ∈ sentFrom c l log) : .sent m ∈ log := by
  simp only [sentFrom, List.mem_filterMap, List.mem_reverse] at h
  obtain ⟨e, he, h2⟩ := h
  cases e with
  | sent m' =>
    simp only at h2
    by_cases hc : m'.src.map c.locA = some l
    · rw [if_pos hc] at h2; simp only [Option.some.injEq] at h2; subst h2; exact he
    · rw [if_neg hc] at h2; simp at h2
  | took _ _ => simp at h2
  | exec _ _ _ => simp at h2

theorem sent_of_sentTo {c : Cfg} {l d : Nat} {m : Msg} {log : List Ev} (h : m ∈ sentTo c l d log) : .sent m ∈ log := by
  simp only [sentTo, List.mem_filterMap, List.mem_reverse] at h
  obtain ⟨e, he, h2⟩ := h
  cases e with
  | sent m' =>
    simp only at h2
    by_cases hc : m'.src.map c.locA = some l ∧ m'.dest = d
    · rw [if_pos hc] at h2; simp only [Option.some.injEq] at h2; subst h2; exact he
    · rw [if_neg hc] at h2; simp at h2
  | took _ _ => simp at h2
  | exec _ _ _ => simp at h2

theorem queue_sent {c : Cfg} {s : State} (hi : InvQ c s) {l : Nat} {m : Msg} {a : Nat} (hm : m ∈ s.queue l) (ha : m.src = some a) : .sent m ∈ s.log := by
  by_cases hl : c.locA a = l
  · apply sent_of_sentFrom (c := c) (l := l)
    rw [hi.fifoL]
    simp [hm, fromL, ha, hl]
  · have hd : c.locD m.dest = l := by
      rcases hi.wfQ l m hm with h1 | ⟨b, h1, h2⟩
      · exact h1
      · rw [ha] at h1; simp only [Option.some.injEq] at h1; subst h1; exact absurd h2 hl
    apply sent_of_sentTo (c := c) (l := c.locA a) (d := m.dest)
    rw [hi.fifo _ _ (by rw [hd]; exact hl), hd]
    simp [hm, sel, ha]

/-- where an original message was put into a wrapped call or executed it had been sent -/
def Came (o : Orig) (log : List Ev) : Prop := ∀ a, o.src = some a → .sent ⟨o.uid, o.src, o.dest, .user o.ty⟩ ∈ log

structure InvO (s : State) : Prop where
  ex : ∀ l h o, .exec l h o ∈ s.log → Came o s.log
  q : ∀ l m h o, m ∈ s.queue l → m.body = .call h o → Came o s.log
  i : ∀ l m h o, m ∈ s.inb l → m.body = .call h o → Came o s.log

theorem Came.mono {o : Orig} {log : List Ev} {e : Ev} (h : Came o log) : Came o (e :: log) := fun a ha => List.mem_cons_of_mem _ (h a ha)

theorem invO_send (c : Cfg) (s : State) (a dest : Nat) (body : Body) (hb : ∀ h o, body ≠ .call h o) (h : InvO s) : InvO (send c a dest body s) := by
  refine ⟨?_, ?_, ?_⟩
  · intro l hd o hm
    simp only [send, List.mem_cons, reduceCtorEq, false_or] at hm
    exact (h.ex l hd o hm).mono
  · intro l m hd o hm hb'
    rcases mem_send hm with hm | ⟨rfl, _⟩
    · exact (h.q l m hd o hm hb').mono
    · exact absurd hb' (hb hd o)
  · intro l m hd o hm hb'
    exact (h.i l m hd o hm hb').mono

theorem InvO.of {s s' : State} (h : InvO s) (h1 : s'.queue = s.queue) (h2 : s'.inb = s.inb) (h3 : s'.log = s.log) : InvO s' := by
  obtain ⟨n, q, i, sb, p, f, al, st, lg⟩ := s'
  simp only at h1 h2 h3
  subst h1 h2 h3
  exact ⟨h.ex, h.q, h.i⟩

theorem invO_pop {s : State} {l : Nat} {m : Msg} {rest : List Msg} (h : InvO s) (hq : s.queue l = m :: rest) : InvO (popped l m rest s) := by
  refine ⟨?_, ?_, ?_⟩
  · intro k hd o hm
    simp only [popped, List.mem_cons, reduceCtorEq, false_or] at hm
    exact (h.ex k hd o hm).mono
  · intro k m' hd o hm hb; exact (h.q k m' hd o (mem_popped hq hm) hb).mono
  · intro k m' hd o hm hb; exact (h.i k m' hd o hm hb).mono

theorem mem_enqueue {s : State} {k j : Nat} {m m' : Msg} (hm : m' ∈ (enqueue k m s).inb j) : m' ∈ s.inb j ∨ m' = m := by
  by_cases e : j = k
  · subst e
    simp only [enqueue, upd_self, List.mem_append, List.mem_singleton] at hm
    exact hm
  · simp only [enqueue, upd_ne _ _ _ _ e] at hm; exact .inl hm

theorem invO_enqueue {s : State} {k : Nat} {m : Msg} (h : InvO s) (hb : ∀ hd o, m.body = .call hd o → Came o s.log) : InvO (enqueue k m s) := by
  refine ⟨h.ex, h.q, ?_⟩
  intro j m' hd o hm hb'
  rcases mem_enqueue hm with hm | rfl
  · exact h.i j m' hd o hm hb'
  · exact hb hd o hb'

theorem subscribe_shape {c : Cfg} {s s' : State} {a : Nat} {h : Handler} {addr : Nat} {anon : Bool} (he : subscribe c a h addr anon s = .ok s') :
    ∃ s1 dest body, s' = send c a dest body s1 ∧ s1.queue = s.queue ∧ s1.inb = s.inb ∧ s1.log = s.log ∧ (∀ h o, body ≠ .call h o) := by
  simp only [subscribe] at he
  split at he
  · simp at he
  · split at he
    · simp only [Except.ok.injEq] at he
      exact ⟨_, _, _, he.symm, rfl, rfl, rfl, by simp⟩
    · simp only [Except.ok.injEq] at he
      exact ⟨_, _, _, he.symm, rfl, rfl, rfl, by simp⟩

theorem unsubscribe_shape {c : Cfg} {s s' : State} {a : Nat} {h : Handler} {addr : Nat} (he : unsubscribe c a h addr s = .ok s') :
    s' = s ∨ ∃ s1 dest body, s' = send c a dest body s1 ∧ s1.queue = s.queue ∧ s1.inb = s.inb ∧ s1.log = s.log ∧ (∀ h o, body ≠ .call h o) := by
  simp only [unsubscribe] at he
  split at he
  · simp at he
  · split at he
    · split at he
      · simp only [Except.ok.injEq] at he; exact .inl he.symm
      · simp at he
    · split at he
      · simp only [Except.ok.injEq] at he; exact .inl he.symm
      · simp only [Except.ok.injEq] at he
        exact .inr ⟨_, _, _, he.symm, rfl, rfl, rfl, by simp⟩

/-- actions of user code: nothing is executed, nothing leaves the queues, only their own queue grows -/
structure Quiet (s s' : State) : Prop where
  o : InvO s → InvO s'
  ex : execs s'.log = execs s.log
  inb : s'.inb = s.inb
  sub : ∀ e ∈ s.log, e ∈ s'.log
  grow : ∀ l, ∃ q, s'.queue l = s.queue l ++ q

theorem Quiet.refl (s : State) : Quiet s s := ⟨id, rfl, rfl, fun _ h => h, fun _ => ⟨[], by simp⟩⟩
theorem Quiet.trans {s s1 s2 : State} (h1 : Quiet s s1) (h2 : Quiet s1 s2) : Quiet s s2 :=
  ⟨fun h => h2.o (h1.o h), h2.ex.trans h1.ex, h2.inb.trans h1.inb, fun e h => h2.sub e (h1.sub e h), fun l => by
    obtain ⟨q1, e1⟩ := h1.grow l
    obtain ⟨q2, e2⟩ := h2.grow l
    exact ⟨q1 ++ q2, by rw [e2, e1, List.append_assoc]⟩⟩

theorem quiet_send (c : Cfg) (s s1 : State) (a dest : Nat) (body : Body) (hq : s1.queue = s.queue) (hi : s1.inb = s.inb) (hl : s1.log = s.log)
    (hb : ∀ h o, body ≠ .call h o) : Quiet s (send c a dest body s1) := by
  refine ⟨fun h => invO_send c s1 a dest body hb (h.of hq hi hl), ?_, hi, ?_, ?_⟩
  · simp only [send, execs_sent, hl]
  · intro e he; simp only [send, hl, List.mem_cons]; exact .inr he
  · intro l
    simp only [send, hq]
    by_cases e : l = c.locA a
    · subst e; exact ⟨_, upd_self _ _ _⟩
    · exact ⟨[], by rw [upd_ne _ _ _ _ e]; simp⟩

theorem quiet_runActs (c : Cfg) (a : Nat) : ∀ (l : List Act) (s s' : State), runActs c a l s = .ok s' → Quiet s s' := by
  intro l
  induction l with
  | nil => intro s s' he; simp only [runActs, Except.ok.injEq] at he; subst he; exact Quiet.refl s
  | cons x l ih =>
    intro s s' he
    cases x with
    | send dest ty =>
      simp only [runActs] at he
      exact (quiet_send c s s a dest _ rfl rfl rfl (by simp)).trans (ih _ s' he)
    | subscribe h addr anon =>
      simp only [runActs] at he
      cases hs : subscribe c a h addr anon s with
      | error e => rw [hs] at he; simp at he
      | ok s1 =>
        rw [hs] at he
        obtain ⟨s2, dest, body, rfl, h1, h2, h3, h4⟩ := subscribe_shape hs
        exact (quiet_send c s s2 a dest body h1 h2 h3 h4).trans (ih _ s' he)
    | unsubscribe h addr =>
      simp only [runActs] at he
      cases hs : unsubscribe c a h addr s with
      | error e => rw [hs] at he; simp at he
      | ok s1 =>
        rw [hs] at he
        rcases unsubscribe_shape hs with rfl | ⟨s2, dest, body, rfl, h1, h2, h3, h4⟩
        · exact ih _ s' he
        · exact (quiet_send c s s2 a dest body h1 h2 h3 h4).trans (ih _ s' he)

theorem callHandler_spec {c : Cfg} {env : Env} {l : Nat} {h : Handler} {o : Orig} {s s' : State} (he : callHandler c env l h o s = .ok s') :
    Quiet { s with log := .exec l h o :: s.log } s' := quiet_runActs c h.actor _ _ s' he

/-- the internal recipients are run one after another, each once -/
theorem callAll_spec (c : Cfg) (env : Env) (l : Nat) (o : Orig) (j : Joint) : ∀ (hs : List Handler) (s s' : State),
    callAll c env l o j hs s = .ok s' → Came o s.log →
    (InvO s → InvO s') ∧ execs s'.log = execs s.log ++ hs.map (fun h => (l, h, o)) ∧ s'.inb = s.inb ∧ (∀ e ∈ s.log, e ∈ s'.log) ∧
      (∀ k, ∃ q, s'.queue k = s.queue k ++ q) := by
  intro hs
  induction hs with
  | nil => intro s s' he _; simp only [callAll, Except.ok.injEq] at he; subst he; exact ⟨id, by simp, rfl, fun _ h => h, fun _ => ⟨[], by simp⟩⟩
  | cons h hs ih =>
    intro s s' he hc
    simp only [callAll] at he
    cases hcl : callHandler c env l h o s with
    | error e => rw [hcl] at he; simp at he
    | ok s1 =>
      rw [hcl] at he
      simp only at he
      split at he
      · have hq := callHandler_spec hcl
        have hc1 : Came o s1.log := fun a ha => hq.sub _ (List.mem_cons_of_mem _ (hc a ha))
        obtain ⟨k1, k2, k3, k4, k5⟩ := ih s1 s' he hc1
        refine ⟨fun hi => k1 (hq.o ⟨?_, fun l' m' hd o' hm hb => (hi.q l' m' hd o' hm hb).mono, fun l' m' hd o' hm hb => (hi.i l' m' hd o' hm hb).mono⟩), ?_, ?_, ?_, ?_⟩
        · intro l' hd o' hm
          simp only [List.mem_cons, Ev.exec.injEq] at hm
          rcases hm with ⟨rfl, rfl, rfl⟩ | hm
          · exact hc.mono
          · exact (hi.ex l' hd o' hm).mono
        · rw [k2, hq.ex]; simp only [execs_exec, List.map_cons, List.append_assoc, List.singleton_append]
        · exact k3.trans hq.inb
        · intro e hm; exact k4 e (hq.sub e (List.mem_cons_of_mem _ hm))
        · intro k
          obtain ⟨q1, e1⟩ := hq.grow k
          obtain ⟨q2, e2⟩ := k5 k
          exact ⟨q1 ++ q2, by rw [e2, e1, List.append_assoc]⟩
      · simp at he

/-- the wrapped calls of a list of messages -/
def wraps (q : List Msg) : List (Handler × Orig) := q.filterMap fun m => match m.body with | .call h o => some (h, o) | _ => none

theorem wrapAll_spec (c : Cfg) (o : Orig) : ∀ (hs : List Handler) (s : State), Came o s.log →
    (InvO s → InvO (wrapAll c o hs s)) ∧ (wrapAll c o hs s).log = s.log ∧ (wrapAll c o hs s).queue = s.queue ∧
      ∀ k, ∃ q, (wrapAll c o hs s).inb k = s.inb k ++ q ∧ (∀ m ∈ q, ∃ h, m.body = .call h o) ∧
        wraps q = (hs.filter (fun h => decide (c.locA h.actor = k))).map (fun h => (h, o)) := by
  intro hs
  induction hs with
  | nil => intro s _; exact ⟨id, rfl, rfl, fun k => ⟨[], by simp [wrapAll], by simp, by simp [wraps]⟩⟩
  | cons h hs ih =>
    intro s hc
    obtain ⟨k1, k2, k3, k4⟩ := ih (enqueue (c.locA h.actor) ⟨s.next, none, c.supAddr (c.locA h.actor), .call h o⟩ { s with next := s.next + 1 }) hc
    refine ⟨fun hi => k1 (invO_enqueue (hi.of rfl rfl rfl) (by intro hd o' hb; simp only [Body.call.injEq] at hb; obtain ⟨rfl, rfl⟩ := hb; exact hc)), k2, k3, ?_⟩
    intro k
    obtain ⟨q, e1, e2, e3⟩ := k4 k
    by_cases hk : c.locA h.actor = k
    · refine ⟨⟨s.next, none, c.supAddr (c.locA h.actor), .call h o⟩ :: q, ?_, ?_, ?_⟩
      · rw [wrapAll, e1]; subst hk; simp only [enqueue, upd_self, List.append_assoc, List.singleton_append]
      · intro m hm
        simp only [List.mem_cons] at hm
        rcases hm with rfl | hm
        · exact ⟨h, rfl⟩
        · exact e2 m hm
      · simp only [wraps, List.filterMap_cons, List.filter_cons, hk, decide_true, if_true, List.map_cons, List.cons.injEq, true_and]
        exact e3
    · refine ⟨q, ?_, e2, ?_⟩
      · rw [wrapAll, e1]; simp only [enqueue, upd_ne _ _ _ _ (Ne.symm hk)]
      · rw [e3]; simp [List.filter_cons, hk]

/-- one turn of the loop that takes a user message for an address of this locality -/
theorem take_user (c : Cfg) (env : Env) (l : Nat) (s s' : State) (m : Msg) (rest : List Msg) (ty : Nat) (hi : InvQ c s)
    (hq : s.queue l = m :: rest) (hl : c.locD m.dest = l) (hb : m.body = .user ty) (he : take c env l s = .ok s') :
    (InvO s → InvO s') ∧ execs s'.log = execs s.log ++ (s.subs m.dest ty).int.map (fun h => (l, h, ⟨m.uid, m.src, m.dest, ty⟩)) ∧
      (∀ k, ∃ q, s'.inb k = s.inb k ++ q ∧
        wraps q = ((s.subs m.dest ty).ext.filter (fun h => decide (c.locA h.actor = k))).map (fun h => (h, ⟨m.uid, m.src, m.dest, ty⟩))) ∧
      (∀ e ∈ s.log, e ∈ s'.log) ∧ .took l m ∈ s'.log ∧ ∀ k, ∃ q, s'.queue k = upd s.queue l rest k ++ q := by
  have hcame : Came ⟨m.uid, m.src, m.dest, ty⟩ s.log := by
    intro a ha
    have := queue_sent hi (l := l) (m := m) (a := a) (by rw [hq]; simp) ha
    obtain ⟨u, sr, d, b⟩ := m
    simp only at hb; subst hb; exact this
  simp only [take, hq] at he
  rw [if_neg (by simpa using hl), hb] at he
  simp only at he
  obtain ⟨w1, w2, w3, w4⟩ := wrapAll_spec c ⟨m.uid, m.src, m.dest, ty⟩ (s.subs m.dest ty).ext (popped l m rest s) hcame.mono
  obtain ⟨k1, k2, k3, k4, k5⟩ := callAll_spec c env l _ _ _ _ s' he (by
    intro a ha
    have := hcame.mono (e := .took l m) a ha
    rw [← show (popped l m rest s).log = .took l m :: s.log from rfl, ← w2] at this
    exact this)
  refine ⟨fun hi => k1 (w1 (invO_pop hi hq)), ?_, ?_, ?_, ?_, ?_⟩
  · rw [k2]
    have : (wrapAll c ⟨m.uid, m.src, m.dest, ty⟩ (s.subs m.dest ty).ext (popped l m rest s)).log = .took l m :: s.log := w2
    simp only [popped] at this
    rw [this, execs_took]
  · intro k
    obtain ⟨q, e1, _, e3⟩ := w4 k
    exact ⟨q, by rw [k3]; exact e1, e3⟩
  · intro e hm
    apply k4
    have : (wrapAll c ⟨m.uid, m.src, m.dest, ty⟩ (s.subs m.dest ty).ext (popped l m rest s)).log = .took l m :: s.log := w2
    simp only [popped] at this
    rw [this]; simp [hm]
  · apply k4
    have : (wrapAll c ⟨m.uid, m.src, m.dest, ty⟩ (s.subs m.dest ty).ext (popped l m rest s)).log = .took l m :: s.log := w2
    simp only [popped] at this
    rw [this]; simp
  · intro k
    obtain ⟨q, e⟩ := k5 k
    refine ⟨q, ?_⟩
    rw [e]
    have : (wrapAll c ⟨m.uid, m.src, m.dest, ty⟩ (s.subs m.dest ty).ext (popped l m rest s)).queue = upd s.queue l rest := w3
    simp only [popped] at this
    rw [this]

/-- the condition of `on_call` -/
def Live (s : State) (h : Handler) (addr : Nat) : Prop :=
  s.alive h.actor = true ∧ (s.st h.actor).rank < AState.shutDown.rank ∧ (h, addr) ∈ s.listed.map (·.1)

/-- one turn of the loop that takes a wrapped call -/
theorem take_call (c : Cfg) (env : Env) (l : Nat) (s s' : State) (m : Msg) (rest : List Msg) (h : Handler) (o : Orig)
    (hq : s.queue l = m :: rest) (hl : c.locD m.dest = l) (hb : m.body = .call h o) (he : take c env l s = .ok s') :
    (Live s h o.dest → Quiet { popped l m rest s with log := .exec l h o :: .took l m :: s.log } s') ∧
    (¬ Live s h o.dest → s' = popped l m rest s) := by
  simp only [take, hq] at he
  rw [if_neg (by simpa using hl), hb] at he
  simp only [onCall] at he
  constructor
  · intro hlv
    rw [if_pos (show _ ∧ _ ∧ _ from hlv)] at he
    exact callHandler_spec he
  · intro hlv
    rw [if_neg (show ¬ (_ ∧ _ ∧ _) from hlv)] at he
    simp only [Except.ok.injEq] at he
    exact he.symm

/-- one turn of the loop that takes something else -/
theorem take_other (c : Cfg) (env : Env) (l : Nat) (s s' : State) (m : Msg) (rest : List Msg)
    (hq : s.queue l = m :: rest) (hx : c.locD m.dest ≠ l ∨ (∀ ty, m.body ≠ .user ty) ∧ (∀ h o, m.body ≠ .call h o)) (he : take c env l s = .ok s')
    (hcall : c.locD m.dest ≠ l → ∀ h o, m.body ≠ .call h o) :
    (InvO s → InvO s') ∧ execs s'.log = execs s.log ∧ (∀ e ∈ s.log, e ∈ s'.log) ∧ .took l m ∈ s'.log ∧ (∀ k, ∃ q, s'.queue k = upd s.queue l rest k ++ q) ∧
      (∀ k, ∃ q, s'.inb k = s.inb k ++ q) := by
  simp only [take, hq] at he
  by_cases hl : c.locD m.dest = l
  · rw [if_neg (by simpa using hl)] at he
    rcases hx with hx | ⟨hx1, hx2⟩
    · exact absurd hl hx
    · have base : ∀ s1 : State, s1.queue = upd s.queue l rest → s1.inb = s.inb → s1.log = .took l m :: s.log →
          (InvO s → InvO s1) ∧ execs s1.log = execs s.log ∧ (∀ e ∈ s.log, e ∈ s1.log) ∧ .took l m ∈ s1.log ∧ (∀ k, ∃ q, s1.queue k = upd s.queue l rest k ++ q) ∧
            (∀ k, ∃ q, s1.inb k = s.inb k ++ q) := by
        intro s1 e1 e2 e3
        refine ⟨fun hi => (invO_pop hi hq).of e1 e2 e3, by rw [e3, execs_took], by rw [e3]; intro e he; simp [he], by rw [e3]; simp,
          fun k => ⟨[], by rw [e1]; simp⟩, fun k => ⟨[], by rw [e2]; simp⟩⟩
      have snd : ∀ (s1 : State) a dest body, s1.queue = upd s.queue l rest → s1.inb = s.inb → s1.log = .took l m :: s.log → (∀ h o, body ≠ .call h o) →
          (InvO s → InvO (send c a dest body s1)) ∧ execs (send c a dest body s1).log = execs s.log ∧ (∀ e ∈ s.log, e ∈ (send c a dest body s1).log) ∧
          .took l m ∈ (send c a dest body s1).log ∧ (∀ k, ∃ q, (send c a dest body s1).queue k = upd s.queue l rest k ++ q) ∧
            (∀ k, ∃ q, (send c a dest body s1).inb k = s.inb k ++ q) := by
        intro s1 a dest body e1 e2 e3 e4
        have hqt := quiet_send c (popped l m rest s) s1 a dest body e1 e2 e3 e4
        refine ⟨fun hi => hqt.o (invO_pop hi hq), ?_, ?_, ?_, hqt.grow, ?_⟩
        · rw [hqt.ex]; simp only [popped, execs_took]
        · intro e he; exact hqt.sub e (by simp [popped, he])
        · exact hqt.sub _ (by simp [popped])
        · intro k; exact ⟨[], by rw [hqt.inb]; simp [popped]⟩
      cases hb : m.body with
      | user ty => exact absurd hb (hx1 ty)
      | call h o => exact absurd hb (hx2 h o)
      | extSub h addr =>
        rw [hb] at he
        simp only [onExtSub] at he
        split at he
        · simp at he
        · simp only [Except.ok.injEq] at he
          subst he
          obtain ⟨g1, g2, g3, g4, g5, g6⟩ := snd (setSubs (popped l m rest s) addr h.ty { s.subs addr h.ty with ext := (s.subs addr h.ty).ext ++ [h] }) (c.supActor l) (c.addrOf h.actor) (.confirm h addr) rfl rfl rfl (by simp)
          exact ⟨fun hi => (g1 hi).of rfl rfl rfl, g2, g3, g4, g5, g6⟩
      | unsub h addr =>
        rw [hb] at he
        simp only [onUnsub] at he
        split at he
        · simp at he
        · split at he
          · split at he
            · simp only [Except.ok.injEq] at he
              subst he
              exact base _ rfl rfl rfl
            · simp at he
          · split at he
            · simp at he
            · simp only [Except.ok.injEq] at he
              subst he
              exact snd _ _ _ _ rfl rfl rfl (by simp)
      | commit h addr =>
        rw [hb] at he
        simp only [onCommit] at he
        split at he
        · split at he
          · simp only [Except.ok.injEq] at he
            subst he
            exact base _ rfl rfl rfl
          · simp at he
        · simp at he
      | confirm h addr =>
        rw [hb] at he
        simp only [Except.ok.injEq] at he
        subst he
        exact base _ rfl rfl rfl
  · rw [if_pos hl] at he
    simp only [Except.ok.injEq] at he
    subst he
    refine ⟨fun hi => invO_enqueue (invO_pop hi hq) (fun hd o hb => absurd hb (hcall hl hd o)), ?_, ?_, ?_, ?_, ?_⟩
    · simp only [enqueue, execs_took]
    · intro e he; simp [enqueue, he]
    · simp [enqueue]
    · intro k; exact ⟨[], by simp [enqueue]⟩
    · intro k
      simp only [enqueue]
      by_cases e : k = c.locD m.dest
      · subst e; exact ⟨_, upd_self _ _ _⟩
      · exact ⟨[], by rw [upd_ne _ _ _ _ e]; simp⟩

theorem call_here {c : Cfg} {s : State} (hi : Inv c s) {l : Nat} {m : Msg} {rest : List Msg} (hq : s.queue l = m :: rest) :
    c.locD m.dest ≠ l → ∀ h o, m.body ≠ .call h o :=
  fun hl h o hb => hl (hi.E.placeQ l m h o (by rw [hq]; simp) hb).2.2

theorem invO_take (c : Cfg) (env : Env) (l : Nat) (s s' : State) (hi : Inv c s) (ho : InvO s) (he : take c env l s = .ok s') : InvO s' := by
  cases hq : s.queue l with
  | nil => simp only [take, hq, Except.ok.injEq] at he; subst he; exact ho
  | cons m rest =>
    by_cases hl : c.locD m.dest = l
    · cases hb : m.body with
      | user ty => exact (take_user c env l s s' m rest ty hi.Q hq hl hb he).1 ho
      | call h o =>
        obtain ⟨h1, h2⟩ := take_call c env l s s' m rest h o hq hl hb he
        by_cases hlv : Live s h o.dest
        · refine (h1 hlv).o ⟨?_, ?_, ?_⟩
          · intro k hd o' hm
            simp only [List.mem_cons, Ev.exec.injEq, reduceCtorEq, false_or] at hm
            rcases hm with ⟨rfl, rfl, rfl⟩ | hm
            · exact (ho.q _ m hd o' (by rw [hq]; simp) hb).mono.mono
            · exact (ho.ex k hd o' hm).mono.mono
          · intro k m' hd o' hm hb'; exact (ho.q k m' hd o' (mem_popped hq hm) hb').mono.mono
          · intro k m' hd o' hm hb'; exact (ho.i k m' hd o' hm hb').mono.mono
        · rw [h2 hlv]; exact invO_pop ho hq
      | _ => exact (take_other c env l s s' m rest hq (.inr ⟨by simp [hb], by simp [hb]⟩) he (call_here hi hq)).1 ho
    · exact (take_other c env l s s' m rest hq (.inl hl) he (call_here hi hq)).1 ho

theorem invO_step (c : Cfg) (env : Env) (s s' : State) (op : Op) (hi : Inv c s) (ho : InvO s) (he : step c env s op = .ok s') : InvO s' := by
  cases op with
  | take l => exact invO_take c env l s s' hi ho he
  | poll l =>
    simp only [step, Except.ok.injEq] at he
    subst he
    simp only [poll]
    cases hq : s.inb l with
    | nil => exact ho
    | cons m rest =>
      refine ⟨ho.ex, ?_, ?_⟩
      · intro k m' hd o hm hb
        simp only at hm
        by_cases e : k = l
        · subst e
          rw [upd_self] at hm
          simp only [List.mem_append, List.mem_singleton] at hm
          rcases hm with hm | rfl
          · exact ho.q k m' hd o hm hb
          · exact ho.i k m' hd o (by rw [hq]; simp) hb
        · rw [upd_ne _ _ _ _ e] at hm; exact ho.q k m' hd o hm hb
      · intro k m' hd o hm hb
        simp only at hm
        by_cases e : k = l
        · subst e
          rw [upd_self] at hm
          exact ho.i k m' hd o (by rw [hq]; simp [hm]) hb
        · rw [upd_ne _ _ _ _ e] at hm; exact ho.i k m' hd o hm hb
  | act a l => exact (quiet_runActs c a l s s' he).o ho
  | outside dest ty =>
    simp only [step, Except.ok.injEq] at he
    subst he
    exact invO_enqueue (ho.of rfl rfl rfl) (by simp)
  | life a alive st =>
    simp only [step, Except.ok.injEq] at he
    subst he
    exact ho.of rfl rfl rfl
  | dropPlugin a =>
    simp only [step, Except.ok.injEq] at he
    subst he
    exact ho.of rfl rfl rfl

theorem reachO (c : Cfg) (env : Env) (ops : List Op) (s : State) (h : run c env .init ops = .ok s) : InvO s := by
  suffices ∀ (ops : List Op) (s0 : State), Inv c s0 → InvO s0 → run c env s0 ops = .ok s → InvO s from
    this ops .init (inv_init c) ⟨by simp [State.init], by simp [State.init], by simp [State.init]⟩ h
  intro ops
  induction ops with
  | nil => intro s0 _ ho he; simp only [run, Except.ok.injEq] at he; subst he; exact ho
  | cons op ops ih =>
    intro s0 hi ho he
    simp only [run] at he
    have hg := step_good c env s0 op hi
    cases hs : step c env s0 op with
    | error e => rw [hs] at he; simp at he
    | ok s1 =>
      rw [hs] at he hg
      exact ih s1 hg (invO_step c env s0 s1 op hi ho hs) he

end Verif.Net
