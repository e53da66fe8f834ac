import Verif.Requests.Spec

/-!
# The invariant of the request machinery
-/

namespace Verif.Requests
open Verif

/-- request maps, timers and active requests agree -/
structure InvA (c : Cfg) (s : State) : Prop where
  reqT : ∀ k cur, s.reqs.find k = some cur →
    s.timers.find k = some .request ∧ (cur.source, k.2) ∈ s.active ∧ c.supOf cur.source = k.1
  tReq : ∀ k, s.timers.find k = some .request → ∃ cur, s.reqs.find k = some cur
  act : ∀ a i, (a, i) ∈ s.active → ∃ cur, s.reqs.find (c.supOf a, i) = some cur ∧ cur.source = a
  actN : s.active.Nodup
  bound : ∀ k t, s.timers.find k = some t → k.2 ≤ s.last
  uniq : ∀ k k' t t', s.timers.find k = some t → s.timers.find k' = some t' → k.2 = k'.2 → k = k'
  stk : ∀ k ∈ s.stack, s.timers.find k = some .user
  stkN : s.stack.Nodup

/-- the requests in the log -/
structure InvB (c : Cfg) (s : State) : Prop where
  pend : ∀ k cur, s.reqs.find k = some cur → .requested cur.source k.2 cur.origin ∈ s.log ∧ s.log.countP (isEnd k.2) = 0
  all : ∀ a i o, .requested a i o ∈ s.log → i ≤ s.last ∧
    (s.reqs.find (c.supOf a, i) = some ⟨a, o⟩ ∨ s.log.countP (isEnd i) = 1)
  once : ∀ i, s.log.countP (isReq i) ≤ 1
  fresh : ∀ i, s.last < i → s.log.countP (isReq i) = 0
  ends : ∀ i, s.log.countP (isEnd i) ≤ s.log.countP (isReq i)
  why : ∀ i, .abandoned i ∈ s.log → ∃ a o, .requested a i o ∈ s.log ∧ (.finishing a ∈ s.log ∨ .finishing (c.supOf a) ∈ s.log)

/-- the queue and the dispatched messages -/
structure InvC (s : State) : Prop where
  count : ∀ i, s.queue.countP (isResp i) + s.log.countP (isDeliv i) = s.log.countP (isFinal i)
  sorted : (delivTags s.log ++ s.queue.map (·.1)).Pairwise (· < ·)
  tags : ∀ t ∈ delivTags s.log ++ s.queue.map (·.1), t < s.tag
  qok : ∀ t i o p, (t, Msg.response i o p) ∈ s.queue → .resolved i p ∈ s.log ∧ ∃ a, .requested a i o ∈ s.log
  dok : ∀ t i o p, .delivered t (.response i o p) ∈ s.log → .resolved i p ∈ s.log ∧ ∃ a, .requested a i o ∈ s.log

/-- the user timers in the log -/
structure InvD (s : State) : Prop where
  run : ∀ a i, s.timers.find (a, i) = some .user → .started a i ∈ s.log ∧
    ((a, i) ∈ s.stack → s.log.countP (isCall a i) = 1) ∧ ((a, i) ∉ s.stack → s.log.countP (isCall a i) = 0)
  gone : ∀ a i, .started a i ∈ s.log → i ≤ s.last ∧
    (s.timers.find (a, i) = some .user ∨ s.log.countP (isCall a i) = 1)
  called : ∀ a i, s.log.countP (isCall a i) ≠ 0 → .started a i ∈ s.log
  le : ∀ a i, s.log.countP (isCall a i) ≤ 1

structure Inv (c : Cfg) (s : State) : Prop where
  A : InvA c s
  B : InvB c s
  C : InvC s
  D : InvD s

theorem inv_init (c : Cfg) : Inv c State.init := by
  constructor <;> constructor <;> simp [State.init, delivTags]

theorem nextId_ok (c : Cfg) (n : Nat) (reqs : AMap (Nat × Nat) Curry) (last : Nat)
    (hb : ∀ k cur, reqs.find k = some cur → k.2 ≤ last) :
    nextId c n reqs last = .ok (last + 1) ∨ nextId c n reqs last = .error .wrapped := by
  cases n with
  | zero => exact .inr rfl
  | succ n =>
    simp only [nextId]
    by_cases h : last + 1 ≥ c.M
    · rw [if_pos h]; exact .inr rfl
    · rw [if_neg h]
      cases hf : reqs.find (c.leader, last + 1) with
      | none => simp
      | some cur => have := hb _ _ hf; simp only at this; omega

theorem reqs_bound {c : Cfg} {s : State} (h : InvA c s) : ∀ k cur, s.reqs.find k = some cur → k.2 ≤ s.last :=
  fun k cur hk => h.bound k _ (h.reqT k cur hk).1

/-- the state after a request -/
def afterRequest (c : Cfg) (s : State) (a o : Nat) : State :=
  { s with
    last := s.last + 1
    reqs := s.reqs.set (c.supOf a, s.last + 1) ⟨a, o⟩
    timers := s.timers.set (c.supOf a, s.last + 1) .request
    active := (a, s.last + 1) :: s.active
    queue := s.queue ++ [(s.tag, .request (s.last + 1))]
    tag := s.tag + 1
    log := .requested a (s.last + 1) o :: s.log }

theorem fresh_timer {c : Cfg} {s : State} (h : InvA c s) (o : Nat) : s.timers.find (o, s.last + 1) = none := by
  cases hf : s.timers.find (o, s.last + 1) with
  | none => rfl
  | some t => have := h.bound _ _ hf; simp only at this; omega

theorem fresh_req {c : Cfg} {s : State} (h : InvA c s) (o : Nat) : s.reqs.find (o, s.last + 1) = none := by
  cases hf : s.reqs.find (o, s.last + 1) with
  | none => rfl
  | some t => have := reqs_bound h _ _ hf; simp only at this; omega

theorem fresh_active {c : Cfg} {s : State} (h : InvA c s) (a : Nat) : (a, s.last + 1) ∉ s.active := by
  intro hm
  obtain ⟨cur, h1, _⟩ := h.act _ _ hm
  rw [fresh_req h] at h1; simp at h1

theorem request_eq (c : Cfg) (s : State) (a o : Nat) (h : InvA c s) :
    request c s a o = .ok (afterRequest c s a o) ∨ request c s a o = .error .wrapped := by
  rcases nextId_ok c c.M s.reqs s.last (reqs_bound h) with hn | hn
  · left
    simp only [request, hn, put, startTimer]
    have h1 := fresh_timer h (c.supOf a)
    have h2 := fresh_req h (c.supOf a)
    have h3 := fresh_active h a
    simp [h1, emplace, h2, emplaceSet, h3, afterRequest]
  · right; simp [request, hn]

/-- the state after the start of a user timer -/
def afterStart (s : State) (a : Nat) : State :=
  { s with
    last := s.last + 1
    timers := s.timers.set (a, s.last + 1) .user
    log := .started a (s.last + 1) :: s.log }

theorem userTimer_eq (c : Cfg) (s : State) (a : Nat) (h : InvA c s) :
    userTimer c s a = .ok (afterStart s a) ∨ userTimer c s a = .error .wrapped := by
  rcases nextId_ok c c.M s.reqs s.last (reqs_bound h) with hn | hn
  · left
    simp only [userTimer, hn, startTimer]
    have h1 := fresh_timer h a
    simp [h1, afterStart]
  · right; simp [userTimer, hn]

theorem inv_afterRequest (c : Cfg) (s : State) (a o : Nat) (h : Inv c s) : Inv c (afterRequest c s a o) := by
  obtain ⟨hA, hB, hC, hD⟩ := h
  have f1 := fresh_timer hA (c.supOf a)
  have f2 := fresh_req hA (c.supOf a)
  have f3 := fresh_active hA a
  refine ⟨?_, ?_, ?_, ?_⟩
  · constructor <;> simp only [afterRequest, AMap.find_set]
    · intro k cur hk
      by_cases hk0 : k = (c.supOf a, s.last + 1)
      · subst hk0
        simp only [if_true, Option.some.injEq] at hk ⊢
        subst hk
        simp
      · simp only [if_neg hk0] at hk ⊢
        obtain ⟨h1, h2, h3⟩ := hA.reqT k cur hk
        exact ⟨h1, by simp [h2], h3⟩
    · intro k hk
      by_cases hk0 : k = (c.supOf a, s.last + 1)
      · exact ⟨⟨a, o⟩, by simp [hk0]⟩
      · simp only [if_neg hk0] at hk ⊢
        exact hA.tReq k hk
    · intro a' i hm
      simp only [List.mem_cons, Prod.mk.injEq] at hm
      rcases hm with ⟨rfl, rfl⟩ | hm
      · exact ⟨⟨a', o⟩, by simp⟩
      · obtain ⟨cur, h1, h2⟩ := hA.act a' i hm
        have : (c.supOf a', i) ≠ (c.supOf a, s.last + 1) := by
          intro he; rw [he, f2] at h1; simp at h1
        exact ⟨cur, by simp only [if_neg this]; exact h1, h2⟩
    · simp only [List.nodup_cons]; exact ⟨f3, hA.actN⟩
    · intro k t hk
      by_cases hk0 : k = (c.supOf a, s.last + 1)
      · subst hk0; simp
      · simp only [if_neg hk0] at hk
        have := hA.bound k t hk; omega
    · intro k k' t t' hk hk' he
      by_cases hk0 : k = (c.supOf a, s.last + 1)
      · by_cases hk1 : k' = (c.supOf a, s.last + 1)
        · rw [hk0, hk1]
        · simp only [if_neg hk1] at hk'
          have := hA.bound k' t' hk'
          rw [hk0] at he; simp only at he; omega
      · by_cases hk1 : k' = (c.supOf a, s.last + 1)
        · simp only [if_neg hk0] at hk
          have := hA.bound k t hk
          rw [hk1] at he; simp only at he; omega
        · simp only [if_neg hk0] at hk
          simp only [if_neg hk1] at hk'
          exact hA.uniq k k' t t' hk hk' he
    · intro k hk
      have := hA.stk k hk
      have hne : k ≠ (c.supOf a, s.last + 1) := by intro he; rw [he, f1] at this; simp at this
      simp only [if_neg hne]; exact this
    · exact hA.stkN
  · have hz := hB.fresh (s.last + 1) (by omega)
    constructor <;> simp only [afterRequest, AMap.find_set]
    · intro k cur hk
      by_cases hk0 : k = (c.supOf a, s.last + 1)
      · subst hk0
        simp only [if_true, Option.some.injEq] at hk
        subst hk
        have := hB.ends (s.last + 1)
        refine ⟨by simp, ?_⟩
        simp only [List.countP_cons, isEnd, Bool.false_eq_true, if_false]; omega
      · simp only [if_neg hk0] at hk
        obtain ⟨h1, h2⟩ := hB.pend k cur hk
        refine ⟨by simp [h1], ?_⟩
        simp only [List.countP_cons, isEnd]; simpa using h2
    · intro a' i o' hm
      simp only [List.mem_cons, Ev.requested.injEq] at hm
      rcases hm with ⟨rfl, rfl, rfl⟩ | hm
      · simp
      · obtain ⟨h1, h2⟩ := hB.all a' i o' hm
        refine ⟨by omega, ?_⟩
        have : (c.supOf a', i) ≠ (c.supOf a, s.last + 1) := by
          intro he; simp only [Prod.mk.injEq] at he; omega
        simp only [if_neg this, List.countP_cons, isEnd]
        simpa using h2
    · intro i
      simp only [List.countP_cons, isReq]
      have := hB.once i
      by_cases hi : s.last + 1 = i
      · subst hi; rw [hz]; simp
      · simp [hi, this]
    · intro i hi
      simp only [List.countP_cons, isReq]
      have := hB.fresh i (by omega)
      have hne : s.last + 1 ≠ i := by omega
      simp [this, hne]
    · intro i
      have := hB.ends i
      simp only [List.countP_cons, isReq, isEnd]
      simp only [Bool.false_eq_true, if_false]
      omega
    · intro i hm
      simp only [List.mem_cons, reduceCtorEq, false_or] at hm
      obtain ⟨a', o', h1, h2⟩ := hB.why i hm
      exact ⟨a', o', by simp [h1], by simpa using h2⟩
  · constructor <;> simp only [afterRequest, delivTags]
    · intro i
      have := hC.count i
      simp only [List.countP_append, List.countP_cons, List.countP_nil, isResp, isDeliv, isFinal]
      simpa using this
    · rw [List.map_append, ← List.append_assoc, List.pairwise_append]
      refine ⟨hC.sorted, by simp, ?_⟩
      intro x hx y hy
      simp only [List.map_cons, List.map_nil, List.mem_singleton] at hy
      subst hy; exact hC.tags x hx
    · intro t ht
      rw [List.map_append, ← List.append_assoc, List.mem_append] at ht
      rcases ht with ht | ht
      · have := hC.tags t ht; omega
      · simp at ht; omega
    · intro t i o' p hm
      simp only [List.mem_append, List.mem_singleton, Prod.mk.injEq, reduceCtorEq, and_false, or_false] at hm
      obtain ⟨h1, a', h2⟩ := hC.qok t i o' p hm
      exact ⟨by simp [h1], a', by simp [h2]⟩
    · intro t i o' p hm
      simp only [List.mem_cons, reduceCtorEq, false_or] at hm
      obtain ⟨h1, a', h2⟩ := hC.dok t i o' p hm
      exact ⟨by simp [h1], a', by simp [h2]⟩
  · constructor <;> simp only [afterRequest, AMap.find_set]
    · intro a' i ht
      by_cases hk0 : (a', i) = (c.supOf a, s.last + 1)
      · rw [if_pos hk0] at ht; simp at ht
      · rw [if_neg hk0] at ht
        obtain ⟨h1, h2⟩ := hD.run a' i ht
        refine ⟨by simp [h1], ?_⟩
        simp only [List.countP_cons, isCall]; simpa using h2
    · intro a' i hm
      simp only [List.mem_cons, reduceCtorEq, false_or] at hm
      obtain ⟨h1, h2⟩ := hD.gone a' i hm
      refine ⟨by omega, ?_⟩
      have : (a', i) ≠ (c.supOf a, s.last + 1) := by
        intro he; simp only [Prod.mk.injEq] at he; omega
      simp only [if_neg this, List.countP_cons, isCall]; simpa using h2
    · intro a' i hne
      simp only [List.countP_cons, isCall] at hne
      exact List.mem_cons_of_mem _ (hD.called a' i (by simpa using hne))
    · intro a' i
      simp only [List.countP_cons, isCall]; simpa using hD.le a' i

theorem inv_afterStart (c : Cfg) (s : State) (a : Nat) (h : Inv c s) : Inv c (afterStart s a) := by
  obtain ⟨hA, hB, hC, hD⟩ := h
  have f1 := fresh_timer hA a
  have f2 := fresh_req hA a
  refine ⟨?_, ?_, ?_, ?_⟩
  · constructor <;> simp only [afterStart, AMap.find_set]
    · intro k cur hk
      have hb := reqs_bound hA k cur hk
      have hne : k ≠ (a, s.last + 1) := by intro he; rw [he] at hb; simp only at hb; omega
      simp only [if_neg hne]
      exact hA.reqT k cur hk
    · intro k hk
      by_cases hk0 : k = (a, s.last + 1)
      · simp [hk0] at hk
      · simp only [if_neg hk0] at hk
        exact hA.tReq k hk
    · exact hA.act
    · exact hA.actN
    · intro k t hk
      by_cases hk0 : k = (a, s.last + 1)
      · subst hk0; simp
      · simp only [if_neg hk0] at hk
        have := hA.bound k t hk; omega
    · intro k k' t t' hk hk' he
      by_cases hk0 : k = (a, s.last + 1)
      · by_cases hk1 : k' = (a, s.last + 1)
        · rw [hk0, hk1]
        · simp only [if_neg hk1] at hk'
          have := hA.bound k' t' hk'
          rw [hk0] at he; simp only at he; omega
      · by_cases hk1 : k' = (a, s.last + 1)
        · simp only [if_neg hk0] at hk
          have := hA.bound k t hk
          rw [hk1] at he; simp only at he; omega
        · simp only [if_neg hk0] at hk
          simp only [if_neg hk1] at hk'
          exact hA.uniq k k' t t' hk hk' he
    · intro k hk
      have := hA.stk k hk
      have hne : k ≠ (a, s.last + 1) := by intro he; rw [he, f1] at this; simp at this
      simp only [if_neg hne]; exact this
    · exact hA.stkN
  · constructor <;> simp only [afterStart]
    · intro k cur hk
      obtain ⟨h1, h2⟩ := hB.pend k cur hk
      refine ⟨by simp [h1], ?_⟩
      simp only [List.countP_cons, isEnd]; simpa using h2
    · intro a' i o' hm
      simp only [List.mem_cons, reduceCtorEq, false_or] at hm
      obtain ⟨h1, h2⟩ := hB.all a' i o' hm
      refine ⟨by omega, ?_⟩
      simp only [List.countP_cons, isEnd]
      simpa using h2
    · intro i
      simp only [List.countP_cons, isReq]
      simpa using hB.once i
    · intro i hi
      simp only [List.countP_cons, isReq]
      simpa using hB.fresh i (by omega)
    · intro i
      have := hB.ends i
      simp only [List.countP_cons, isReq, isEnd]
      simpa using this
    · intro i hm
      simp only [List.mem_cons, reduceCtorEq, false_or] at hm
      obtain ⟨a', o', h1, h2⟩ := hB.why i hm
      exact ⟨a', o', by simp [h1], by simpa using h2⟩
  · constructor <;> simp only [afterStart, delivTags]
    · intro i
      have := hC.count i
      simp only [List.countP_cons, isDeliv, isFinal]
      simpa using this
    · exact hC.sorted
    · exact hC.tags
    · intro t i o' p hm
      obtain ⟨h1, a', h2⟩ := hC.qok t i o' p hm
      exact ⟨by simp [h1], a', by simp [h2]⟩
    · intro t i o' p hm
      simp only [List.mem_cons, reduceCtorEq, false_or] at hm
      obtain ⟨h1, a', h2⟩ := hC.dok t i o' p hm
      exact ⟨by simp [h1], a', by simp [h2]⟩
  · have hnot : ∀ b, s.log.countP (isCall b (s.last + 1)) = 0 := by
      intro b
      by_cases hz : s.log.countP (isCall b (s.last + 1)) = 0
      · exact hz
      · have := (hD.gone b _ (hD.called b _ hz)).1; omega
    constructor <;> simp only [afterStart, AMap.find_set]
    · intro a' i ht
      by_cases hk0 : (a', i) = (a, s.last + 1)
      · simp only [Prod.mk.injEq] at hk0
        obtain ⟨rfl, rfl⟩ := hk0
        refine ⟨by simp, ?_⟩
        have : (a', s.last + 1) ∉ s.stack := by
          intro hm; have := hA.stk _ hm; rw [f1] at this; simp at this
        refine ⟨fun hm => absurd hm this, fun _ => ?_⟩
        simp only [List.countP_cons, isCall]; simpa using hnot a'
      · rw [if_neg hk0] at ht
        obtain ⟨h1, h2⟩ := hD.run a' i ht
        refine ⟨by simp [h1], ?_⟩
        simp only [List.countP_cons, isCall]; simpa using h2
    · intro a' i hm
      simp only [List.mem_cons, Ev.started.injEq] at hm
      rcases hm with ⟨rfl, rfl⟩ | hm
      · simp
      · obtain ⟨h1, h2⟩ := hD.gone a' i hm
        refine ⟨by omega, ?_⟩
        have : (a', i) ≠ (a, s.last + 1) := by
          intro he; simp only [Prod.mk.injEq] at he; omega
        simp only [if_neg this, List.countP_cons, isCall]; simpa using h2
    · intro a' i hne
      simp only [List.countP_cons, isCall] at hne
      exact List.mem_cons_of_mem _ (hD.called a' i (by simpa using hne))
    · intro a' i
      simp only [List.countP_cons, isCall]; simpa using hD.le a' i

/-- a message other than a response is appended -/
theorem inv_put (c : Cfg) (s : State) (m : Msg) (h : Inv c s) (hm : ∀ i o p, m ≠ .response i o p) : Inv c (put s m) := by
  obtain ⟨hA, hB, hC, hD⟩ := h
  refine ⟨⟨hA.reqT, hA.tReq, hA.act, hA.actN, hA.bound, hA.uniq, hA.stk, hA.stkN⟩,
    ⟨hB.pend, hB.all, hB.once, hB.fresh, hB.ends, hB.why⟩, ?_, ⟨hD.run, hD.gone, hD.called, hD.le⟩⟩
  constructor <;> simp only [put]
  · intro i
    have := hC.count i
    have hr : isResp i (s.tag, m) = false := by
      cases m with
      | response j o p => exact absurd rfl (hm j o p)
      | _ => rfl
    simp only [List.countP_append, List.countP_cons, List.countP_nil, hr]
    simpa using this
  · rw [List.map_append, ← List.append_assoc, List.pairwise_append]
    refine ⟨hC.sorted, by simp, ?_⟩
    intro x hx y hy
    simp only [List.map_cons, List.map_nil, List.mem_singleton] at hy
    subst hy; exact hC.tags x hx
  · intro t ht
    rw [List.map_append, ← List.append_assoc, List.mem_append] at ht
    rcases ht with ht | ht
    · have := hC.tags t ht; omega
    · simp at ht; omega
  · intro t i o' p hq
    simp only [List.mem_append, List.mem_singleton, Prod.mk.injEq] at hq
    rcases hq with hq | ⟨_, hq⟩
    · exact hC.qok t i o' p hq
    · exact absurd hq.symm (hm i o' p)
  · exact hC.dok

/-- the beginning or end of a shutdown is logged -/
theorem inv_log (c : Cfg) (s : State) (e : Ev) (h : Inv c s) (he : (∃ a, e = .finishing a) ∨ ∃ a, e = .finished a) :
    Inv c { s with log := e :: s.log } := by
  obtain ⟨hA, hB, hC, hD⟩ := h
  have e1 : ∀ i, isEnd i e = false := by rcases he with ⟨a, rfl⟩ | ⟨a, rfl⟩ <;> simp [isEnd]
  have e2 : ∀ i, isReq i e = false := by rcases he with ⟨a, rfl⟩ | ⟨a, rfl⟩ <;> simp [isReq]
  have e3 : ∀ i, isFinal i e = false := by rcases he with ⟨a, rfl⟩ | ⟨a, rfl⟩ <;> simp [isFinal]
  have e4 : ∀ i, isDeliv i e = false := by rcases he with ⟨a, rfl⟩ | ⟨a, rfl⟩ <;> simp [isDeliv]
  have e5 : ∀ a i, isCall a i e = false := by rcases he with ⟨a, rfl⟩ | ⟨a, rfl⟩ <;> simp [isCall]
  have e6 : delivTags (e :: s.log) = delivTags s.log := by rcases he with ⟨a, rfl⟩ | ⟨a, rfl⟩ <;> rfl
  have m1 : ∀ a i o, .requested a i o ∈ e :: s.log ↔ .requested a i o ∈ s.log := by
    rcases he with ⟨a, rfl⟩ | ⟨a, rfl⟩ <;> simp
  have m2 : ∀ i, .abandoned i ∈ e :: s.log ↔ .abandoned i ∈ s.log := by
    rcases he with ⟨a, rfl⟩ | ⟨a, rfl⟩ <;> simp
  have m3 : ∀ i p, .resolved i p ∈ e :: s.log ↔ .resolved i p ∈ s.log := by
    rcases he with ⟨a, rfl⟩ | ⟨a, rfl⟩ <;> simp
  have m4 : ∀ i p, .delivered i p ∈ e :: s.log ↔ .delivered i p ∈ s.log := by
    rcases he with ⟨a, rfl⟩ | ⟨a, rfl⟩ <;> simp
  have m5 : ∀ a i, .started a i ∈ e :: s.log ↔ .started a i ∈ s.log := by
    rcases he with ⟨a, rfl⟩ | ⟨a, rfl⟩ <;> simp
  refine ⟨⟨hA.reqT, hA.tReq, hA.act, hA.actN, hA.bound, hA.uniq, hA.stk, hA.stkN⟩, ?_, ?_, ?_⟩
  · constructor <;> simp only [List.countP_cons, e1, e2, m1, m2, Bool.false_eq_true, if_false, Nat.add_zero]
    · exact hB.pend
    · exact hB.all
    · exact hB.once
    · exact hB.fresh
    · exact hB.ends
    · intro i hi
      obtain ⟨a, o, h1, h2⟩ := hB.why i hi
      exact ⟨a, o, h1, h2.imp (List.mem_cons_of_mem _) (List.mem_cons_of_mem _)⟩
  · constructor <;> simp only [List.countP_cons, e3, e4, e6, m1, m3, m4, Bool.false_eq_true, if_false, Nat.add_zero]
    · exact hC.count
    · exact hC.sorted
    · exact hC.tags
    · exact hC.qok
    · exact hC.dok
  · constructor <;> simp only [List.countP_cons, e5, m5, Bool.false_eq_true, if_false, Nat.add_zero]
    · exact hD.run
    · exact hD.gone
    · exact hD.called
    · exact hD.le

/-- the first message leaves the queue without being a response -/
theorem inv_drop (c : Cfg) (s : State) (t : Nat) (m : Msg) (rest : List (Nat × Msg)) (h : Inv c s)
    (hq : s.queue = (t, m) :: rest) (hm : ∀ i, isResp i (t, m) = false) : Inv c { s with queue := rest } := by
  obtain ⟨hA, hB, hC, hD⟩ := h
  refine ⟨⟨hA.reqT, hA.tReq, hA.act, hA.actN, hA.bound, hA.uniq, hA.stk, hA.stkN⟩,
    ⟨hB.pend, hB.all, hB.once, hB.fresh, hB.ends, hB.why⟩, ?_, ⟨hD.run, hD.gone, hD.called, hD.le⟩⟩
  obtain ⟨c1, c2, c3, c4, c5⟩ := hC
  rw [hq] at c1 c2 c3 c4
  constructor <;> simp only
  · intro i
    have := c1 i
    simp only [List.countP_cons, hm, Bool.false_eq_true, if_false] at this
    omega
  · refine List.Pairwise.sublist ?_ c2
    simp
  · intro x hx
    apply c3
    simp only [List.mem_append, List.map_cons, List.mem_cons] at hx ⊢
    rcases hx with hx | hx
    · exact .inl hx
    · exact .inr (.inr hx)
  · intro x i o p hx; exact c4 x i o p (by simp [hx])
  · exact c5

/-- the first message is dispatched -/
theorem inv_deliver (c : Cfg) (s : State) (t : Nat) (m : Msg) (rest : List (Nat × Msg)) (h : Inv c s)
    (hq : s.queue = (t, m) :: rest) : Inv c { s with queue := rest, log := .delivered t m :: s.log } := by
  obtain ⟨hA, hB, hC, hD⟩ := h
  refine ⟨⟨hA.reqT, hA.tReq, hA.act, hA.actN, hA.bound, hA.uniq, hA.stk, hA.stkN⟩, ?_, ?_, ?_⟩
  · constructor <;> simp only [List.countP_cons, isEnd, isReq, List.mem_cons, reduceCtorEq, false_or, Bool.false_eq_true, if_false, Nat.add_zero]
    · exact hB.pend
    · exact hB.all
    · exact hB.once
    · exact hB.fresh
    · exact hB.ends
    · exact hB.why
  · obtain ⟨c1, c2, c3, c4, c5⟩ := hC
    rw [hq] at c1 c2 c3 c4
    constructor <;> simp only [List.countP_cons, isFinal, delivTags, List.mem_cons, reduceCtorEq, false_or, Bool.false_eq_true, if_false, Nat.add_zero]
    · intro i
      have := c1 i
      simp only [List.countP_cons] at this
      have he : isDeliv i (.delivered t m) = isResp i (t, m) := by cases m <;> rfl
      rw [he]; omega
    · simpa using c2
    · intro x hx
      apply c3
      simpa using hx
    · intro x i o p hx; exact c4 x i o p (by simp [hx])
    · intro x i o p hx
      rcases hx with hx | hx
      · simp only [Ev.delivered.injEq] at hx
        exact c4 x i o p (by simp [← hx.1, ← hx.2])
      · exact c5 x i o p hx
  · constructor <;> simp only [List.countP_cons, isCall, List.mem_cons, reduceCtorEq, false_or, Bool.false_eq_true, if_false, Nat.add_zero]
    · exact hD.run
    · exact hD.gone
    · exact hD.called
    · exact hD.le

/-- the callback of a user timer begins -/
theorem inv_push (c : Cfg) (s : State) (o i : Nat) (b : Bool) (h : Inv c s) (ht : s.timers.find (o, i) = some .user)
    (hs : (o, i) ∉ s.stack) : Inv c { s with log := .called o i b :: s.log, stack := (o, i) :: s.stack } := by
  obtain ⟨hA, hB, hC, hD⟩ := h
  refine ⟨⟨hA.reqT, hA.tReq, hA.act, hA.actN, hA.bound, hA.uniq, ?_, ?_⟩, ?_, ?_, ?_⟩
  · intro k hk
    simp only [List.mem_cons] at hk
    rcases hk with rfl | hk
    · exact ht
    · exact hA.stk k hk
  · simp only [List.nodup_cons]; exact ⟨hs, hA.stkN⟩
  · constructor <;> simp only [List.countP_cons, isEnd, isReq, List.mem_cons, reduceCtorEq, false_or, Bool.false_eq_true, if_false, Nat.add_zero]
    · exact hB.pend
    · exact hB.all
    · exact hB.once
    · exact hB.fresh
    · exact hB.ends
    · exact hB.why
  · constructor <;> simp only [List.countP_cons, isFinal, isDeliv, delivTags, List.mem_cons, reduceCtorEq, false_or, Bool.false_eq_true, if_false, Nat.add_zero]
    · exact hC.count
    · exact hC.sorted
    · exact hC.tags
    · exact hC.qok
    · exact hC.dok
  · obtain ⟨h1, _, h3⟩ := hD.run o i ht
    have h3 := h3 hs
    have hc : ∀ a' i', isCall a' i' (.called o i b) = decide ((o, i) = (a', i')) := by
      intro a' i'; rw [Bool.eq_iff_iff]; simp [isCall]
    constructor <;> simp only [List.countP_cons, hc, List.mem_cons, reduceCtorEq, false_or]
    · intro a' i' ht'
      obtain ⟨g1, g2, g3⟩ := hD.run a' i' ht'
      refine ⟨g1, ?_, ?_⟩
      · intro hm
        by_cases he : (o, i) = (a', i')
        · simp only [Prod.mk.injEq] at he
          obtain ⟨rfl, rfl⟩ := he
          simp [h3]
        · rcases hm with hm | hm
          · exact absurd hm.symm he
          · simp [he, g2 hm]
      · intro hm
        simp only [not_or] at hm
        have he : (o, i) ≠ (a', i') := fun h => hm.1 h.symm
        simp [he, g3 hm.2]
    · intro a' i' hm
      obtain ⟨g1, g2⟩ := hD.gone a' i' hm
      refine ⟨g1, ?_⟩
      by_cases he : (o, i) = (a', i')
      · simp only [Prod.mk.injEq] at he
        obtain ⟨rfl, rfl⟩ := he
        exact .inl ht
      · simpa [he] using g2
    · intro a' i' hne
      by_cases he : (o, i) = (a', i')
      · simp only [Prod.mk.injEq] at he
        obtain ⟨rfl, rfl⟩ := he
        exact h1
      · exact hD.called a' i' (by simpa [he] using hne)
    · intro a' i'
      by_cases he : (o, i) = (a', i')
      · simp only [Prod.mk.injEq] at he
        obtain ⟨rfl, rfl⟩ := he
        simp [h3]
      · simpa [he] using hD.le a' i'

/-- the callback of a user timer ends -/
theorem inv_pop (c : Cfg) (s : State) (o i : Nat) (st : List (Nat × Nat)) (h : Inv c s) (hs : s.stack = (o, i) :: st) :
    Inv c { s with timers := s.timers.erase (o, i), stack := st } := by
  obtain ⟨hA, hB, hC, hD⟩ := h
  have ht : s.timers.find (o, i) = some .user := hA.stk _ (by rw [hs]; simp)
  have hn : (o, i) ∉ st := by have := hA.stkN; rw [hs] at this; simp at this; exact this.1
  refine ⟨⟨?_, ?_, hA.act, hA.actN, ?_, ?_, ?_, ?_⟩, ⟨hB.pend, hB.all, hB.once, hB.fresh, hB.ends, hB.why⟩,
    ⟨hC.count, hC.sorted, hC.tags, hC.qok, hC.dok⟩, ?_⟩
  · intro k cur hk
    have hg := hA.reqT k cur hk
    have : k ≠ (o, i) := by intro he; rw [he, ht] at hg; simp at hg
    simp only [AMap.find_erase, if_neg this]; exact hg
  · intro k hk
    simp only [AMap.find_erase] at hk
    split at hk
    · simp at hk
    · exact hA.tReq k hk
  · intro k t hk
    simp only [AMap.find_erase] at hk
    split at hk
    · simp at hk
    · exact hA.bound k t hk
  · intro k k' t t' hk hk' he
    simp only [AMap.find_erase] at hk hk'
    split at hk
    · simp at hk
    · split at hk'
      · simp at hk'
      · exact hA.uniq k k' t t' hk hk' he
  · intro k hk
    have hg := hA.stk k (by rw [hs]; simp [hk])
    have : k ≠ (o, i) := by intro he; rw [he] at hk; exact hn hk
    simp only [AMap.find_erase, if_neg this]; exact hg
  · have := hA.stkN; rw [hs] at this; simp at this; exact this.2
  · obtain ⟨d1, d2, d3, d4⟩ := hD
    rw [hs] at d1
    have hc1 := (d1 o i ht).2.1 (by simp)
    constructor <;> simp only [AMap.find_erase]
    · intro a' i' ht'
      by_cases he : (a', i') = (o, i)
      · rw [if_pos he] at ht'; simp at ht'
      · rw [if_neg he] at ht'
        obtain ⟨g1, g2, g3⟩ := d1 a' i' ht'
        refine ⟨g1, fun hm => g2 (by simp [hm]), fun hm => g3 ?_⟩
        simp only [List.mem_cons, not_or]; exact ⟨he, hm⟩
    · intro a' i' hm
      obtain ⟨g1, g2⟩ := d2 a' i' hm
      refine ⟨g1, ?_⟩
      by_cases he : (a', i') = (o, i)
      · simp only [Prod.mk.injEq] at he
        obtain ⟨rfl, rfl⟩ := he
        exact .inr hc1
      · rw [if_neg he]; exact g2
    · exact d3
    · exact d4

/-- the state after request `(o, i)` has ended -/
def afterEnd (s : State) (o i : Nat) (cur : Curry) (e : Ev) (q : List (Nat × Msg)) (tag : Nat) : State :=
  { s with
    reqs := s.reqs.erase (o, i)
    timers := s.timers.erase (o, i)
    active := s.active.erase (cur.source, i)
    queue := q
    tag := tag
    log := e :: s.log }

theorem mem_erase_nodup {l : List (Nat × Nat)} (h : l.Nodup) (x y : Nat × Nat) : x ∈ l.erase y ↔ x ≠ y ∧ x ∈ l :=
  List.Nodup.mem_erase_iff h

theorem inv_afterEnd (c : Cfg) (s : State) (o i : Nat) (cur : Curry) (e : Ev) (q : List (Nat × Msg)) (tag : Nat)
    (h : Inv c s) (hr : s.reqs.find (o, i) = some cur)
    (he : (e = .abandoned i ∧ (.finishing cur.source ∈ s.log ∨ .finishing o ∈ s.log)) ∨ ∃ p, e = .resolved i p)
    (hc : ∀ j, q.countP (isResp j) = s.queue.countP (isResp j) + if isFinal j e then 1 else 0)
    (hsort : (delivTags s.log ++ q.map (·.1)).Pairwise (· < ·))
    (htag : ∀ t ∈ delivTags s.log ++ q.map (·.1), t < tag)
    (hq : ∀ t j o' p, (t, Msg.response j o' p) ∈ q → (t, Msg.response j o' p) ∈ s.queue ∨
      (j = i ∧ o' = cur.origin ∧ e = .resolved i p)) :
    Inv c (afterEnd s o i cur e q tag) := by
  obtain ⟨hA, hB, hC, hD⟩ := h
  obtain ⟨r1, r2, r3⟩ := hA.reqT _ _ hr
  simp only at r2 r3
  have en : ∀ j, isEnd j e = (i == j) := by
    intro j; rcases he with ⟨rfl, _⟩ | ⟨p, rfl⟩ <;> rfl
  have e2 : ∀ j, isReq j e = false := by
    intro j; rcases he with ⟨rfl, _⟩ | ⟨p, rfl⟩ <;> rfl
  have e4 : ∀ j, isDeliv j e = false := by
    intro j; rcases he with ⟨rfl, _⟩ | ⟨p, rfl⟩ <;> rfl
  have e5 : ∀ a j, isCall a j e = false := by
    intro a j; rcases he with ⟨rfl, _⟩ | ⟨p, rfl⟩ <;> rfl
  have e6 : delivTags (e :: s.log) = delivTags s.log := by
    rcases he with ⟨rfl, _⟩ | ⟨p, rfl⟩ <;> rfl
  have m1 : ∀ a j o, .requested a j o ∈ e :: s.log ↔ .requested a j o ∈ s.log := by
    rcases he with ⟨rfl, _⟩ | ⟨p, rfl⟩ <;> simp
  have m4 : ∀ j p, .delivered j p ∈ e :: s.log ↔ .delivered j p ∈ s.log := by
    rcases he with ⟨rfl, _⟩ | ⟨p, rfl⟩ <;> simp
  have m5 : ∀ a j, .started a j ∈ e :: s.log ↔ .started a j ∈ s.log := by
    rcases he with ⟨rfl, _⟩ | ⟨p, rfl⟩ <;> simp
  have m6 : ∀ a, .finishing a ∈ e :: s.log ↔ .finishing a ∈ s.log := by
    rcases he with ⟨rfl, _⟩ | ⟨p, rfl⟩ <;> simp
  obtain ⟨p1, p2⟩ := hB.pend _ _ hr
  simp only at p1 p2
  refine ⟨?_, ?_, ?_, ?_⟩
  · constructor <;> simp only [afterEnd, AMap.find_erase]
    · intro k cur' hk
      by_cases hk0 : k = (o, i)
      · rw [if_pos hk0] at hk; simp at hk
      · rw [if_neg hk0] at hk
        obtain ⟨g1, g2, g3⟩ := hA.reqT k cur' hk
        refine ⟨by rw [if_neg hk0]; exact g1, ?_, g3⟩
        rw [mem_erase_nodup hA.actN]
        refine ⟨?_, g2⟩
        intro he'
        simp only [Prod.mk.injEq] at he'
        exact hk0 (hA.uniq k (o, i) _ _ g1 r1 he'.2)
    · intro k hk
      by_cases hk0 : k = (o, i)
      · rw [if_pos hk0] at hk; simp at hk
      · rw [if_neg hk0] at hk ⊢; exact hA.tReq k hk
    · intro a j hm
      rw [mem_erase_nodup hA.actN] at hm
      obtain ⟨cur', g1, g2⟩ := hA.act a j hm.2
      have : (c.supOf a, j) ≠ (o, i) := by
        intro he'
        rw [he', hr] at g1
        simp only [Option.some.injEq] at g1
        subst g1
        simp only [Prod.mk.injEq] at he'
        exact hm.1 (by rw [g2, he'.2])
      exact ⟨cur', by rw [if_neg this]; exact g1, g2⟩
    · exact hA.actN.erase _
    · intro k t hk
      split at hk
      · simp at hk
      · exact hA.bound k t hk
    · intro k k' t t' hk hk' he
      split at hk
      · simp at hk
      · split at hk'
        · simp at hk'
        · exact hA.uniq k k' t t' hk hk' he
    · intro k hk
      have hg := hA.stk k hk
      have : k ≠ (o, i) := by intro he; rw [he, r1] at hg; simp at hg
      rw [if_neg this]; exact hg
    · exact hA.stkN
  · constructor <;> simp only [afterEnd, AMap.find_erase, List.countP_cons, en, e2, m1, m6, beq_iff_eq,
      Bool.false_eq_true, if_false, Nat.add_zero]
    · intro k cur' hk
      by_cases hk0 : k = (o, i)
      · rw [if_pos hk0] at hk; simp at hk
      · rw [if_neg hk0] at hk
        obtain ⟨g1, g2⟩ := hB.pend k cur' hk
        have : i ≠ k.2 := by
          intro he'
          exact hk0 (hA.uniq k (o, i) _ _ (hA.reqT k cur' hk).1 r1 he'.symm)
        refine ⟨g1, ?_⟩
        rw [if_neg this]; exact g2
    · intro a j o' hm
      obtain ⟨g1, g2⟩ := hB.all a j o' hm
      refine ⟨g1, ?_⟩
      by_cases hj : i = j
      · subst hj; right; simp [p2]
      · have : (c.supOf a, j) ≠ (o, i) := by intro he'; simp only [Prod.mk.injEq] at he'; exact hj he'.2.symm
        rw [if_neg this, if_neg hj]; exact g2
    · exact hB.once
    · exact hB.fresh
    · intro j
      by_cases hj : i = j
      · subst hj
        have : 0 < s.log.countP (isReq i) := List.countP_pos_iff.2 ⟨_, p1, by simp [isReq]⟩
        simp only [p2, if_true]; omega
      · rw [if_neg hj]; exact hB.ends j
    · intro j hj
      simp only [List.mem_cons] at hj
      rcases hj with hj | hj
      · rcases he with ⟨rfl, hf⟩ | ⟨p, rfl⟩
        · simp only [Ev.abandoned.injEq] at hj
          subst hj
          exact ⟨cur.source, cur.origin, p1, by rw [r3]; exact hf⟩
        · simp at hj
      · exact hB.why j hj
  · constructor <;> simp only [afterEnd, e6, m1, m4]
    · intro j
      have := hC.count j
      rw [hc j]
      simp only [List.countP_cons, e4, Bool.false_eq_true, if_false]
      omega
    · exact hsort
    · exact htag
    · intro t j o' p hm
      rcases hq t j o' p hm with hm | ⟨rfl, rfl, rfl⟩
      · obtain ⟨g1, g2⟩ := hC.qok t j o' p hm
        exact ⟨List.mem_cons_of_mem _ g1, g2⟩
      · exact ⟨by simp, _, p1⟩
    · intro t j o' p hm
      obtain ⟨g1, g2⟩ := hC.dok t j o' p hm
      exact ⟨List.mem_cons_of_mem _ g1, g2⟩
  · constructor <;> simp only [afterEnd, AMap.find_erase, List.countP_cons, e5, m5, Bool.false_eq_true, if_false, Nat.add_zero]
    · intro a' i' ht'
      split at ht'
      · simp at ht'
      · exact hD.run a' i' ht'
    · intro a' i' hm
      obtain ⟨g1, g2⟩ := hD.gone a' i' hm
      refine ⟨g1, ?_⟩
      by_cases he' : (a', i') = (o, i)
      · rw [he', r1] at g2
        simp only [Option.some.injEq, reduceCtorEq, false_or] at g2
        simp only [Prod.mk.injEq] at he'
        right; exact g2
      · rw [if_neg he']; exact g2
    · exact hD.called
    · exact hD.le

/-- what no step of the library undoes or invents -/
structure Frame (s s' : State) : Prop where
  stack : s'.stack = s.stack
  log : s.log <:+ s'.log
  last : s.last ≤ s'.last
  replies : ∀ t sup i p, (t, Msg.reply sup i p) ∈ s'.queue → (t, Msg.reply sup i p) ∈ s.queue
  answers : ∀ i p, .resolved i (some p) ∈ s'.log → .resolved i (some p) ∈ s.log

theorem Frame.refl (s : State) : Frame s s := ⟨rfl, List.suffix_refl _, Nat.le_refl _, fun _ _ _ _ h => h, fun _ _ h => h⟩

theorem Frame.trans {a b d : State} (h : Frame a b) (g : Frame b d) : Frame a d :=
  ⟨g.stack.trans h.stack, h.log.trans g.log, Nat.le_trans h.last g.last, fun t sup i p hm => h.replies _ _ _ _ (g.replies _ _ _ _ hm),
    fun i p hm => h.answers _ _ (g.answers _ _ hm)⟩

/-- what a command expects -/
def Pre (s : State) : Cmd → Prop
  | .acts _ _ => True
  | .trigger o i cn g => (o, i) ∉ s.stack ∧ g = false ∧
      (cn = true → ∀ cur, s.reqs.find (o, i) = some cur → .finishing cur.source ∈ s.log ∨ .finishing o ∈ s.log)
  | .drainTimers a => s.stack = [] ∧ .finishing a ∈ s.log
  | .drainRequests a => s.stack = [] ∧ .finishing a ∈ s.log

/-- callbacks are only called because of cancellations -/
def Cancels : Cmd → Prop
  | .trigger _ _ cn _ => cn = true
  | _ => True

/-- what a command achieves -/
def Achieved (s s' : State) : Cmd → Prop
  | .acts _ _ => True
  | .trigger o i _ _ => s'.timers.find (o, i) = none ∧
      (s.timers.find (o, i) = some .request → ∀ k t, s'.timers.find k = some t → s.timers.find k = some t)
  | .drainTimers a => ∀ i, s'.timers.find (a, i) = none
  | .drainRequests a => (∀ i, (a, i) ∉ s'.active) ∧ ∀ k t, s'.timers.find k = some t → s.timers.find k = some t

def Good (c : Cfg) (cmd : Cmd) (s : State) : Except Err State → Prop
  | .ok s' => Inv c s' ∧ Frame s s' ∧ Achieved s s' cmd ∧
      (Cancels cmd → ∀ a i, .called a i false ∈ s'.log → .called a i false ∈ s.log)
  | .error e => e ≠ .fault

theorem firstTimer_none {a : Nat} {l : AMap (Nat × Nat) TKind} (h : firstTimer a l = none) (i : Nat) :
    l.find (a, i) = none := by
  cases hf : l.find (a, i) with
  | none => rfl
  | some t =>
    have hm := AMap.mem_of_find hf
    simp only [firstTimer, Option.map_eq_none_iff, List.find?_eq_none] at h
    exact absurd (by simp) (h _ hm)

theorem firstActive_none {a : Nat} {l : List (Nat × Nat)} (h : firstActive a l = none) (i : Nat) : (a, i) ∉ l := by
  intro hm
  simp only [firstActive, Option.map_eq_none_iff, List.find?_eq_none] at h
  exact absurd (by simp) (h _ hm)

theorem firstActive_some {a i : Nat} {l : List (Nat × Nat)} (h : firstActive a l = some i) : (a, i) ∈ l := by
  simp only [firstActive, Option.map_eq_some_iff] at h
  obtain ⟨x, h1, h2⟩ := h
  have := List.mem_of_find?_eq_some h1
  have h3 := List.find?_some h1
  simp only [beq_iff_eq] at h3
  rw [← h2, ← h3]; exact this

/-- what the expiration or cancellation of a request timer does -/
theorem trigReq (c : Cfg) (s : State) (o i : Nat) (cn : Bool) (h : Inv c s) (ht : s.timers.find (o, i) = some .request) :
    ∃ cur s1, s.reqs.find (o, i) = some cur ∧ onRequestTrigger s o i cn false = .ok s1 ∧
      { s1 with timers := s1.timers.erase (o, i) } = (if cn then afterEnd s o i cur (.abandoned i) s.queue s.tag
        else afterEnd s o i cur (.resolved i none) (s.queue ++ [(s.tag, .response i cur.origin none)]) (s.tag + 1)) := by
  obtain ⟨cur, hr⟩ := h.A.tReq _ ht
  obtain ⟨_, h2, _⟩ := h.A.reqT _ _ hr
  simp only at h2
  cases cn
  · refine ⟨cur, { s with active := s.active.erase (cur.source, i), reqs := s.reqs.erase (o, i), queue := s.queue ++ [(s.tag, .response i cur.origin none)], tag := s.tag + 1, log := .resolved i none :: s.log }, hr, ?_, ?_⟩
    · simp [onRequestTrigger, hr, put, h2]
    · simp [afterEnd]
  · refine ⟨cur, { s with active := s.active.erase (cur.source, i), reqs := s.reqs.erase (o, i), log := .abandoned i :: s.log }, hr, ?_, ?_⟩
    · simp [onRequestTrigger, hr, h2]
    · simp [afterEnd]

theorem inv_timeout (c : Cfg) (s : State) (o i : Nat) (cur : Curry) (h : Inv c s) (hr : s.reqs.find (o, i) = some cur) :
    Inv c (afterEnd s o i cur (.resolved i none) (s.queue ++ [(s.tag, .response i cur.origin none)]) (s.tag + 1)) := by
  apply inv_afterEnd c s o i cur _ _ _ h hr (.inr ⟨none, rfl⟩)
  · intro j
    by_cases hj : i = j <;> simp [List.countP_append, isResp, isFinal, hj]
  · rw [List.map_append, ← List.append_assoc, List.pairwise_append]
    refine ⟨h.C.sorted, by simp, ?_⟩
    intro x hx y hy
    simp only [List.map_cons, List.map_nil, List.mem_singleton] at hy
    subst hy; exact h.C.tags x hx
  · intro t ht
    rw [List.map_append, ← List.append_assoc, List.mem_append] at ht
    rcases ht with ht | ht
    · have := h.C.tags t ht; omega
    · simp at ht; omega
  · intro t j o' p hm
    simp only [List.mem_append, List.mem_singleton, Prod.mk.injEq, Msg.response.injEq] at hm
    rcases hm with hm | ⟨rfl, rfl, rfl, rfl⟩
    · exact .inl hm
    · exact .inr ⟨rfl, rfl, rfl⟩

theorem inv_abandon (c : Cfg) (s : State) (o i : Nat) (cur : Curry) (h : Inv c s) (hr : s.reqs.find (o, i) = some cur)
    (hf : .finishing cur.source ∈ s.log ∨ .finishing o ∈ s.log) :
    Inv c (afterEnd s o i cur (.abandoned i) s.queue s.tag) := by
  apply inv_afterEnd c s o i cur _ _ _ h hr (.inl ⟨rfl, hf⟩)
  · intro j; simp [isFinal]
  · exact h.C.sorted
  · exact h.C.tags
  · intro t j o' p hm; exact .inl hm

theorem exec_good (c : Cfg) (env : Env) (n : Nat) : ∀ (cmd : Cmd) (s : State), Inv c s → Pre s cmd →
    Good c cmd s (exec c n env cmd s) := by
  induction n with
  | zero => intro cmd s _ _; simp [exec, Good]
  | succ n ih =>
    intro cmd s hi hp
    cases cmd with
    | acts a l =>
      cases l with
      | nil => simp only [exec]; exact ⟨hi, Frame.refl s, trivial, fun _ _ _ h => h⟩
      | cons x l =>
        cases x with
        | start =>
          simp only [exec]
          rcases userTimer_eq c s a hi.A with he | he
          · rw [he]
            simp only
            have hi1 := inv_afterStart c s a hi
            have hf : Frame s (afterStart s a) := by
              refine ⟨rfl, ⟨[_], rfl⟩, ?_, fun _ _ _ _ h => h, ?_⟩
              · simp [afterStart]
              · intro i p hm; simpa [afterStart] using hm
            have := ih (.acts a l) _ hi1 trivial
            revert this
            cases exec c n env (.acts a l) (afterStart s a) with
            | error e => exact fun h => h
            | ok s' =>
              rintro ⟨g1, g2, _, g4⟩
              refine ⟨g1, hf.trans g2, trivial, fun hc b i hm => ?_⟩
              have := g4 trivial b i hm
              simpa [afterStart] using this
          · rw [he]; simp [Good]
        | request o =>
          simp only [exec]
          rcases request_eq c s a o hi.A with he | he
          · rw [he]
            simp only
            have hi1 := inv_afterRequest c s a o hi
            have hf : Frame s (afterRequest c s a o) := by
              refine ⟨rfl, ⟨[_], rfl⟩, ?_, ?_, ?_⟩
              · simp [afterRequest]
              · intro t sup i p hm; simpa [afterRequest] using hm
              · intro i p hm; simpa [afterRequest] using hm
            have := ih (.acts a l) _ hi1 trivial
            revert this
            cases exec c n env (.acts a l) (afterRequest c s a o) with
            | error e => exact fun h => h
            | ok s' =>
              rintro ⟨g1, g2, _, g4⟩
              refine ⟨g1, hf.trans g2, trivial, fun hc b i hm => ?_⟩
              have := g4 trivial b i hm
              simpa [afterRequest] using this
          · rw [he]; simp [Good]
        | cancel id =>
          simp only [exec]
          by_cases hill : s.timers.find (a, id) ≠ some .user ∨ (a, id) ∈ s.stack
          · rw [if_pos hill]; simp [Good]
          · rw [if_neg hill]
            simp only [not_or, ne_eq, Decidable.not_not] at hill
            have hpre : Pre s (.trigger a id true false) := by
              refine ⟨hill.2, rfl, fun _ cur hr => ?_⟩
              have := (hi.A.reqT _ _ hr).1
              rw [hill.1] at this; simp at this
            have h1 := ih (.trigger a id true false) s hi hpre
            revert h1
            cases exec c n env (.trigger a id true false) s with
            | error e => exact fun h => h
            | ok s1 =>
              rintro ⟨f1, f2, _, f4⟩
              have := ih (.acts a l) s1 f1 trivial
              revert this
              simp only
              cases exec c n env (.acts a l) s1 with
              | error e => exact fun h => h
              | ok s' =>
                rintro ⟨g1, g2, _, g4⟩
                exact ⟨g1, f2.trans g2, trivial, fun hc b i hm => f4 rfl b i (g4 trivial b i hm)⟩
    | trigger o i cn g =>
      obtain ⟨hs, rfl, hfin⟩ := hp
      simp only [exec]
      cases ht : s.timers.find (o, i) with
      | none => exact ⟨hi, Frame.refl s, ⟨ht, by simp [ht]⟩, fun _ _ _ h => h⟩
      | some k =>
        cases k with
        | request =>
          obtain ⟨cur, s1, hr, he, he2⟩ := trigReq c s o i cn hi ht
          simp only [he]
          rw [he2]
          cases cn with
          | false =>
            simp only [Bool.false_eq_true, if_false]
            refine ⟨inv_timeout c s o i cur hi hr, ⟨rfl, ⟨[_], rfl⟩, Nat.le_refl _, ?_, ?_⟩, ⟨?_, ?_⟩, by simp [Cancels]⟩
            · intro t sup j p hm; simpa [afterEnd] using hm
            · intro j p hm; simpa [afterEnd] using hm
            · simp [afterEnd]
            · intro _ k t hk
              simp only [afterEnd, AMap.find_erase] at hk
              split at hk
              · simp at hk
              · exact hk
          | true =>
            simp only [if_true]
            refine ⟨inv_abandon c s o i cur hi hr (hfin rfl cur hr), ⟨rfl, ⟨[_], rfl⟩, Nat.le_refl _, ?_, ?_⟩, ⟨?_, ?_⟩, ?_⟩
            · intro t sup j p hm; simpa [afterEnd] using hm
            · intro j p hm; simpa [afterEnd] using hm
            · simp [afterEnd]
            · intro _ k t hk
              simp only [afterEnd, AMap.find_erase] at hk
              split at hk
              · simp at hk
              · exact hk
            · intro _ a j hm; simpa [afterEnd] using hm
        | user =>
          simp only
          have hi1 := inv_push c s o i cn hi ht hs
          have := ih (.acts o (env (.called o i cn :: s.log))) _ hi1 trivial
          revert this
          cases exec c n env (.acts o (env (.called o i cn :: s.log))) { s with log := .called o i cn :: s.log, stack := (o, i) :: s.stack } with
          | error e => exact fun h => h
          | ok s2 =>
            rintro ⟨g1, g2, _, g4⟩
            have hst : s2.stack = (o, i) :: s.stack := g2.stack
            have ht2 : s2.timers.find (o, i) = some .user := g1.A.stk _ (by rw [hst]; simp)
            simp only [ht2, reduceCtorEq, if_false, hst, List.tail_cons]
            refine ⟨inv_pop c s2 o i s.stack g1 hst, ⟨rfl, ?_, g2.last, g2.replies, ?_⟩, ⟨by simp, by simp [ht]⟩, ?_⟩
            · exact (List.suffix_cons _ _).trans g2.log
            · intro j p hm; simpa using g2.answers j p hm
            · intro hc a j hm
              have := g4 trivial a j hm
              simp only [Cancels] at hc
              subst hc
              simpa using this
    | drainTimers a =>
      simp only [exec]
      cases hf : firstTimer a s.timers with
      | none => exact ⟨hi, Frame.refl s, firstTimer_none hf, fun _ _ _ h => h⟩
      | some id =>
        simp only
        have hpre : Pre s (.trigger a id true false) := ⟨by rw [hp.1]; simp, rfl, fun _ _ _ => .inr hp.2⟩
        have h1 := ih (.trigger a id true false) s hi hpre
        revert h1
        cases exec c n env (.trigger a id true false) s with
        | error e => exact fun h => h
        | ok s1 =>
          rintro ⟨f1, f2, _, f4⟩
          have := ih (.drainTimers a) s1 f1 ⟨f2.stack.trans hp.1, f2.log.mem hp.2⟩
          revert this
          simp only
          cases exec c n env (.drainTimers a) s1 with
          | error e => exact fun h => h
          | ok s' =>
            rintro ⟨g1, g2, g3, g4⟩
            exact ⟨g1, f2.trans g2, g3, fun hc b i hm => f4 rfl b i (g4 trivial b i hm)⟩
    | drainRequests a =>
      simp only [exec]
      cases hf : firstActive a s.active with
      | none => exact ⟨hi, Frame.refl s, ⟨firstActive_none hf, fun _ _ h => h⟩, fun _ _ _ h => h⟩
      | some id =>
        simp only
        obtain ⟨cur, hr, hsrc⟩ := hi.A.act a id (firstActive_some hf)
        have ht := (hi.A.reqT _ _ hr).1
        rw [ht]
        simp only [reduceCtorEq, if_false]
        have hpre : Pre s (.trigger (c.supOf a) id true false) := by
          refine ⟨by rw [hp.1]; simp, rfl, fun _ cur' hr' => .inl ?_⟩
          rw [hr] at hr'
          simp only [Option.some.injEq] at hr'
          rw [← hr', hsrc]; exact hp.2
        have h1 := ih (.trigger (c.supOf a) id true false) s hi hpre
        revert h1
        cases exec c n env (.trigger (c.supOf a) id true false) s with
        | error e => exact fun h => h
        | ok s1 =>
          rintro ⟨f1, f2, f3, f4⟩
          have := ih (.drainRequests a) s1 f1 ⟨f2.stack.trans hp.1, f2.log.mem hp.2⟩
          revert this
          simp only
          cases exec c n env (.drainRequests a) s1 with
          | error e => exact fun h => h
          | ok s' =>
            rintro ⟨g1, g2, g3, g4⟩
            exact ⟨g1, f2.trans g2, ⟨g3.1, fun k t hk => f3.2 ht k t (g3.2 k t hk)⟩,
              fun hc b i hm => f4 rfl b i (g4 trivial b i hm)⟩

/-- a reply to a pending request: the response takes its place in the queue -/
theorem onReply_pending (c : Cfg) (n : Nat) (env : Env) (s : State) (tag sup id p : Nat) (cur : Curry) (h : Inv c s)
    (hr : s.reqs.find (sup, id) = some cur) :
    onReply c (n + 1) env s tag sup id p =
      .ok (afterEnd s sup id cur (.resolved id (some p)) ((tag, .response id cur.origin (some p)) :: s.queue) s.tag) := by
  obtain ⟨h1, h2, _⟩ := h.A.reqT _ _ hr
  simp only at h2
  simp only [onReply, hr, h1, reduceCtorEq, if_false, exec, onRequestTrigger]
  simp [h2, uplift, afterEnd, AMap.erase]

theorem onReply_nofuel (c : Cfg) (env : Env) (s : State) (tag sup id p : Nat) (cur : Curry) (h : Inv c s)
    (hr : s.reqs.find (sup, id) = some cur) : onReply c 0 env s tag sup id p = .error .outOfFuel := by
  obtain ⟨h1, h2, _⟩ := h.A.reqT _ _ hr
  simp [onReply, hr, h1, exec]

/-- top level operations -/
def GoodOp (c : Cfg) (s : State) : Except Err State → Prop
  | .ok s' => Inv c s' ∧ s'.stack = [] ∧ s.log <:+ s'.log
  | .error e => e ≠ .fault

theorem process_good (c : Cfg) (n : Nat) (env : Env) (s : State) (h : Inv c s) (hs : s.stack = []) :
    GoodOp c s (process c n env s) := by
  simp only [process]
  cases hq : s.queue with
  | nil => exact ⟨h, hs, List.suffix_refl _⟩
  | cons x rest =>
    obtain ⟨t, m⟩ := x
    simp only
    have hdel := inv_deliver c s t m rest h hq
    cases m with
    | reply sup id p =>
      simp only
      have hdrop := inv_drop c s t (.reply sup id p) rest h hq (by intro i; rfl)
      cases hr : s.reqs.find (sup, id) with
      | none =>
        have : onReply c n env { s with queue := rest } t sup id p = .ok { s with queue := rest } := by
          simp [onReply, hr]
        rw [this]
        exact ⟨hdrop, hs, List.suffix_refl _⟩
      | some cur =>
        cases n with
        | zero => rw [onReply_nofuel c env _ t sup id p cur hdrop hr]; simp [GoodOp]
        | succ n =>
          rw [onReply_pending c n env _ t sup id p cur hdrop hr]
          refine ⟨?_, hs, ⟨[_], rfl⟩⟩
          apply inv_afterEnd c _ sup id cur _ _ _ hdrop hr (.inr ⟨_, rfl⟩)
          · intro j
            by_cases hj : id = j <;> simp [isResp, isFinal, hj]
          · have := h.C.sorted
            rw [hq] at this
            simpa using this
          · have := h.C.tags
            rw [hq] at this
            simpa using this
          · intro t' j o' p' hm
            simp only [List.mem_cons, Prod.mk.injEq, Msg.response.injEq] at hm
            rcases hm with ⟨rfl, rfl, rfl, rfl⟩ | hm
            · exact .inr ⟨rfl, rfl, rfl⟩
            · exact .inl hm
    | request id => exact ⟨hdel, hs, ⟨[_], rfl⟩⟩
    | response id o p => exact ⟨hdel, hs, ⟨[_], rfl⟩⟩
    | other k => exact ⟨hdel, hs, ⟨[_], rfl⟩⟩

/-- the end of a shutdown -/
def GoodFinish (c : Cfg) (s : State) (a : Nat) : Except Err State → Prop
  | .ok s' => Inv c s' ∧ s'.stack = [] ∧ s.log <:+ s'.log ∧ (∀ i, s'.timers.find (a, i) = none) ∧ (∀ i, (a, i) ∉ s'.active) ∧
      (∀ b i, .called b i false ∈ s'.log → .called b i false ∈ s.log)
  | .error e => e ≠ .fault

theorem finish_good (c : Cfg) (n : Nat) (env : Env) (s : State) (a : Nat) (h : Inv c s) (hs : s.stack = []) :
    GoodFinish c s a (finish c n env s a) := by
  simp only [finish]
  have h0 := inv_log c s (.finishing a) h (.inl ⟨a, rfl⟩)
  have h1 := exec_good c env n (.drainTimers a) _ h0 ⟨hs, by simp⟩
  revert h1
  cases exec c n env (.drainTimers a) { s with log := .finishing a :: s.log } with
  | error e => exact fun h => h
  | ok s1 =>
    rintro ⟨f1, f2, f3, f4⟩
    have hst1 : s1.stack = [] := f2.stack.trans hs
    have h2 := exec_good c env n (.drainRequests a) s1 f1 ⟨hst1, f2.log.mem (by simp)⟩
    revert h2
    simp only
    cases exec c n env (.drainRequests a) s1 with
    | error e => exact fun h => h
    | ok s2 =>
      rintro ⟨g1, g2, g3, g4⟩
      have hnone : ∀ i, s2.timers.find (a, i) = none := by
        intro i
        cases hf : s2.timers.find (a, i) with
        | none => rfl
        | some t => have := g3.2 _ _ hf; rw [f3 i] at this; simp at this
      have hany : ¬ s2.reqs.any (fun p => p.1.1 == a) = true := by
        intro hx
        obtain ⟨⟨⟨b, i⟩, cur⟩, hm, hb⟩ := List.any_eq_true.1 hx
        simp only [beq_iff_eq] at hb
        subst hb
        cases hf : s2.reqs.find (b, i) with
        | none => exact (AMap.find_eq_none_iff _ _).1 hf (List.mem_map.2 ⟨_, hm, rfl⟩)
        | some cur' => have := (g1.A.reqT _ _ hf).1; rw [hnone i] at this; simp at this
      simp only [if_neg hany]
      refine ⟨inv_log c s2 (.finished a) g1 (.inr ⟨a, rfl⟩), g2.stack.trans hst1, ?_, ?_, g3.1, ?_⟩
      · exact ((List.suffix_cons _ _).trans f2.log).trans (g2.log.trans (List.suffix_cons _ _))
      · exact hnone
      · intro b i hm
        simp only [List.mem_cons, reduceCtorEq, false_or] at hm
        have := f4 trivial b i (g4 trivial b i hm)
        simpa using this

theorem stepOp_good (c : Cfg) (n : Nat) (env : Env) (s : State) (op : Op) (h : Inv c s) (hs : s.stack = []) :
    GoodOp c s (stepOp c n env s op) := by
  cases op with
  | act a l =>
    have := exec_good c env n (.acts a l) s h trivial
    simp only [stepOp]
    revert this
    cases exec c n env (.acts a l) s with
    | error e => exact fun h => h
    | ok s' => rintro ⟨g1, g2, _, _⟩; exact ⟨g1, g2.stack.trans hs, g2.log⟩
  | arrive m =>
    cases m with
    | reply sup id p => exact ⟨inv_put c s _ h (by simp), hs, List.suffix_refl _⟩
    | other k => exact ⟨inv_put c s _ h (by simp), hs, List.suffix_refl _⟩
  | process => exact process_good c n env s h hs
  | fire o id =>
    have := exec_good c env n (.trigger o id false false) s h ⟨by rw [hs]; simp, rfl, by simp⟩
    simp only [stepOp]
    revert this
    cases exec c n env (.trigger o id false false) s with
    | error e => exact fun h => h
    | ok s' => rintro ⟨g1, g2, _, _⟩; exact ⟨g1, g2.stack.trans hs, g2.log⟩
  | finish a =>
    have := finish_good c n env s a h hs
    simp only [stepOp]
    revert this
    cases finish c n env s a with
    | error e => exact fun h => h
    | ok s' => rintro ⟨g1, g2, g3, _⟩; exact ⟨g1, g2, g3⟩

theorem run_good (c : Cfg) (n : Nat) (env : Env) (ops : List Op) : ∀ (s : State), Inv c s → s.stack = [] →
    GoodOp c s (run c n env s ops) := by
  induction ops with
  | nil => intro s h hs; exact ⟨h, hs, List.suffix_refl _⟩
  | cons op ops ih =>
    intro s h hs
    simp only [run]
    have h1 := stepOp_good c n env s op h hs
    revert h1
    cases stepOp c n env s op with
    | error e => exact fun h => h
    | ok s1 =>
      rintro ⟨g1, g2, g3⟩
      have := ih s1 g1 g2
      revert this
      simp only
      cases run c n env s1 ops with
      | error e => exact fun h => h
      | ok s' => rintro ⟨k1, k2, k3⟩; exact ⟨k1, k2, g3.trans k3⟩

theorem reach (c : Cfg) (n : Nat) (env : Env) (ops : List Op) (s : State) (h : run c n env State.init ops = .ok s) :
    Inv c s ∧ s.stack = [] := by
  have := run_good c n env ops State.init (inv_init c) rfl
  rw [h] at this
  exact ⟨this.1, this.2.1⟩

end Verif.Requests
