import Verif.Reentry.Model

/-!
# C61: callbacks may change the tables the library walks over
-/

namespace Verif.Reentry

/-- The delivery as one would specify it: every handler of a given list is called, in order. -/
def callEach (grow : Nat → Nat) (env : Env) (s : St) : List Handler → Except Fault St
  | [] => .ok s
  | h :: r => match call grow env s h with
    | .ok s' => callEach grow env s' r
    | .error f => .error f

/-- how many internal handlers were subscribed to `k` so far -/
def adds (k : Key) (s : St) : Nat :=
  s.log.countP (fun e => match e with | .added k' _ true => decide (k' = k) | _ => false)

/-- how many internal handlers of `k` were unsubscribed so far -/
def dels (k : Key) (s : St) : Nat :=
  s.log.countP (fun e => match e with | .removed k' _ true => decide (k' = k) | _ => false)

/-- The beginning of a delivery: the list of `k`, its allocation and capacity, and the counters. -/
structure Start where
  k : Key
  hs : List Handler
  cap : Nat
  buf : Nat
  fresh : Nat
  a0 : Nat
  d0 : Nat

/-- the list is where it was, possibly with more handlers at its end -/
def InPlace (t : Start) (s : St) : Prop :=
  t.fresh ≤ s.fresh ∧ dels t.k s = t.d0 ∧ t.a0 ≤ adds t.k s ∧
  ∃ j xs, s.map.find t.k = some j ∧ j.internal.items = t.hs ++ xs ∧ j.internal.cap = t.cap ∧
    j.internal.buf = t.buf ∧ xs.length = adds t.k s - t.a0 ∧ t.hs.length + xs.length ≤ t.cap

/-- the list has outgrown its allocation, nothing was removed -/
def Moved (t : Start) (s : St) : Prop :=
  t.fresh ≤ s.fresh ∧ dels t.k s = t.d0 ∧ t.a0 ≤ adds t.k s ∧
  t.cap < t.hs.length + (adds t.k s - t.a0) ∧
  ∃ j, s.map.find t.k = some j ∧ j.internal.items ≠ [] ∧ t.fresh ≤ j.internal.buf

/-- something was removed -/
def Shrunk (t : Start) (s : St) : Prop := t.fresh ≤ s.fresh ∧ t.d0 < dels t.k s

theorem adds_called {k : Key} {s : St} {h : Handler} :
    adds k { s with log := .called h :: s.log } = adds k s := by simp [adds]

theorem dels_called {k : Key} {s : St} {h : Handler} :
    dels k { s with log := .called h :: s.log } = dels k s := by simp [dels]

theorem adds_subscribe {grow : Nat → Nat} {k k' : Key} {s : St} {h : Handler} {i : Bool} :
    adds k (subscribe grow s k' h i) = adds k s + (if k' = k ∧ i = true then 1 else 0) := by
  cases i <;> simp [adds, subscribe, List.countP_cons]

theorem dels_subscribe {grow : Nat → Nat} {k k' : Key} {s : St} {h : Handler} {i : Bool} :
    dels k (subscribe grow s k' h i) = dels k s := by
  cases i <;> simp [dels, subscribe]

theorem find_subscribe {grow : Nat → Nat} {k k' : Key} {s : St} {h : Handler} {i : Bool} :
    (subscribe grow s k' h i).map.find k = if k = k' then
      some (if i then { getJoint s k' with internal := (getJoint s k').internal.push grow (s.fresh + 2) h }
        else { getJoint s k' with external := (getJoint s k').external.push grow (s.fresh + 2) h })
      else s.map.find k := by
  simp only [subscribe, AMap.find_set]

theorem forget_ok {s s' : St} {k' : Key} {h : Handler} {i : Bool} (e : forget s k' h i = .ok s') :
    ∃ j, s.map.find k' = some j ∧
      h ∈ (if i then j.internal.items else j.external.items) ∧
      s'.fresh = s.fresh ∧ s'.log = .removed k' h i :: s.log ∧
      ∀ k, s'.map.find k = if k = k' then
        (if (if i then j.internal.items.erase h else j.internal.items) = [] ∧
            (if i then j.external.items else j.external.items.erase h) = [] then none
         else some (if i then { j with internal := j.internal.drop h }
          else { j with external := j.external.drop h })) else s.map.find k := by
  unfold forget at e
  split at e
  · cases e
  · rename_i j hj
    by_cases hm : h ∈ (if i then j.internal.items else j.external.items)
    · rw [if_pos hm] at e
      injection e with e
      subst e
      refine ⟨j, hj, hm, rfl, rfl, ?_⟩
      intro k
      cases i
      · simp only [Vec.drop, Bool.false_eq_true, if_false]
        by_cases hc : j.internal.items = [] ∧ j.external.items.erase h = []
        · simp only [if_pos hc, AMap.find_erase]
        · simp only [if_neg hc, AMap.find_set]
      · simp only [Vec.drop, if_true]
        by_cases hc : j.internal.items.erase h = [] ∧ j.external.items = []
        · simp only [if_pos hc, AMap.find_erase]
        · simp only [if_neg hc, AMap.find_set]
    · rw [if_neg hm] at e; cases e

/-- where the list of `k` can be after one operation -/
theorem op_inPlace {grow : Nat → Nat} {t : Start} (hn : t.hs ≠ []) {s s' : St} {o : Op}
    (hi : InPlace t s) (e : runOp grow s o = .ok s') :
    InPlace t s' ∨ Moved t s' ∨ Shrunk t s' := by
  obtain ⟨hf, hd, ha, j, xs, hj, hit, hcap, hbuf, hxs, hle⟩ := hi
  cases o with
  | subscribe k' h i =>
    simp only [runOp] at e
    injection e with e
    subst e
    by_cases hk : k' = t.k
    · subst hk
      have hg : getJoint s t.k = j := by simp [getJoint, hj]
      cases i
      · left
        refine ⟨by simp only [subscribe]; omega, by rw [dels_subscribe]; exact hd,
          by rw [adds_subscribe]; omega, ?_⟩
        refine ⟨{ j with external := j.external.push grow (s.fresh + 2) h }, xs, ?_, hit, hcap, hbuf, ?_, hle⟩
        · rw [find_subscribe, hg]; simp
        · rw [adds_subscribe]; simpa using hxs
      · by_cases hroom : j.internal.items.length < j.internal.cap
        · left
          refine ⟨by simp only [subscribe]; omega, by rw [dels_subscribe]; exact hd,
            by rw [adds_subscribe]; omega, ?_⟩
          have hp : j.internal.push grow (s.fresh + 2) h =
              { j.internal with items := j.internal.items ++ [h] } := if_pos hroom
          refine ⟨{ j with internal := j.internal.push grow (s.fresh + 2) h }, xs ++ [h], ?_, ?_, ?_, ?_, ?_, ?_⟩
          · rw [find_subscribe, hg]; simp
          · rw [hp]; simp only [hit, List.append_assoc]
          · rw [hp]; exact hcap
          · rw [hp]; exact hbuf
          · rw [adds_subscribe]; simp only [List.length_append, List.length_singleton, and_self, if_true]; omega
          · rw [hit, hcap] at hroom
            simp only [List.length_append, List.length_singleton] at hroom ⊢; omega
        · right; left
          rw [hit, hcap] at hroom
          simp only [List.length_append] at hroom
          refine ⟨by simp only [subscribe]; omega, by rw [dels_subscribe]; exact hd,
            by rw [adds_subscribe]; omega, ?_, ?_⟩
          · rw [adds_subscribe]; simp only [and_self, if_true]; omega
          · have hroom' : ¬ j.internal.items.length < j.internal.cap := by
              rw [hit, hcap]; simp only [List.length_append]; exact hroom
            refine ⟨{ j with internal := j.internal.push grow (s.fresh + 2) h }, ?_, ?_, ?_⟩
            · rw [find_subscribe, hg]; simp
            · simp [Vec.push, if_neg hroom']
            · simp only [Vec.push, if_neg hroom']; omega
    · left
      refine ⟨by simp only [subscribe]; omega, by rw [dels_subscribe]; exact hd,
        by rw [adds_subscribe]; omega, j, xs, ?_, hit, hcap, hbuf, ?_, hle⟩
      · rw [find_subscribe, if_neg (fun hh => hk hh.symm)]; exact hj
      · rw [adds_subscribe]; simpa [hk] using hxs
  | forget k' h i =>
    simp only [runOp] at e
    obtain ⟨j', hj', hm, hfr, hlog, hfind⟩ := forget_ok e
    have hadds : adds t.k s' = adds t.k s := by simp [adds, hlog]
    by_cases hk : k' = t.k
    · subst hk
      have : j' = j := by rw [hj] at hj'; injection hj' with hh; exact hh.symm
      subst this
      cases i
      · left
        refine ⟨by omega, ?_, by omega, ?_⟩
        · simp only [dels, hlog]; rw [← hd]; simp [dels]
        · have := hfind t.k
          simp only [if_true, Bool.false_eq_true, if_false] at this
          have hne : ¬ (j'.internal.items = [] ∧ j'.external.items.erase h = []) := by
            rw [hit]; simp [hn]
          rw [if_neg hne] at this
          exact ⟨_, xs, this, hit, hcap, hbuf, by omega, hle⟩
      · right; right
        refine ⟨by omega, ?_⟩
        rw [← hd]; simp [dels, hlog]
    · left
      refine ⟨by omega, ?_, by omega, j, xs, ?_, hit, hcap, hbuf, by omega, hle⟩
      · rw [← hd]; cases i <;> simp [dels, hlog, hk]
      · rw [hfind, if_neg (fun hh => hk hh.symm)]; exact hj

theorem op_shrunk {grow : Nat → Nat} {t : Start} {s s' : St} {o : Op}
    (hi : Shrunk t s) (e : runOp grow s o = .ok s') : Shrunk t s' := by
  cases o with
  | subscribe k' h i =>
    simp only [runOp] at e
    injection e with e
    subst e
    exact ⟨by have := hi.1; simp only [subscribe]; omega, by rw [dels_subscribe]; exact hi.2⟩
  | forget k' h i =>
    simp only [runOp] at e
    obtain ⟨j', _, _, hfr, hlog, _⟩ := forget_ok e
    refine ⟨by have := hi.1; omega, ?_⟩
    have : dels t.k s ≤ dels t.k s' := by simp only [dels, hlog, List.countP_cons]; omega
    exact Nat.lt_of_lt_of_le hi.2 this

theorem op_moved {grow : Nat → Nat} {t : Start} {s s' : St} {o : Op}
    (hi : Moved t s) (e : runOp grow s o = .ok s') : Moved t s' ∨ Shrunk t s' := by
  obtain ⟨hf, hd, ha, hx, j, hj, hne, hb⟩ := hi
  cases o with
  | subscribe k' h i =>
    simp only [runOp] at e
    injection e with e
    subst e
    left
    refine ⟨by simp only [subscribe]; omega, by rw [dels_subscribe]; exact hd,
      by rw [adds_subscribe]; omega, by rw [adds_subscribe]; omega, ?_⟩
    by_cases hk : k' = t.k
    · subst hk
      have hg : getJoint s t.k = j := by simp [getJoint, hj]
      rw [find_subscribe, hg]
      cases i
      · exact ⟨{ j with external := j.external.push grow (s.fresh + 2) h }, by simp, hne, hb⟩
      · refine ⟨{ j with internal := j.internal.push grow (s.fresh + 2) h }, by simp, ?_, ?_⟩
        · simp only [Vec.push]; split <;> simp
        · simp only [Vec.push]; split
          · exact hb
          · simp only; omega
    · exact ⟨j, by rw [find_subscribe, if_neg (fun hh => hk hh.symm)]; exact hj, hne, hb⟩
  | forget k' h i =>
    simp only [runOp] at e
    obtain ⟨j', hj', hm, hfr, hlog, hfind⟩ := forget_ok e
    have hadds : adds t.k s' = adds t.k s := by simp [adds, hlog]
    by_cases hk : k' = t.k
    · subst hk
      have : j' = j := by rw [hj] at hj'; injection hj' with hh; exact hh.symm
      subst this
      cases i
      · left
        refine ⟨by omega, ?_, by omega, by omega, ?_⟩
        · simp only [dels, hlog]; rw [← hd]; simp [dels]
        · have := hfind t.k
          simp only [if_true, Bool.false_eq_true, if_false] at this
          rw [if_neg (fun hh => hne hh.1)] at this
          exact ⟨_, this, hne, hb⟩
      · right
        refine ⟨by omega, ?_⟩
        rw [← hd]; simp [dels, hlog]
    · left
      refine ⟨by omega, ?_, by omega, by omega, j, ?_, hne, hb⟩
      · rw [← hd]; cases i <;> simp [dels, hlog, hk]
      · rw [hfind, if_neg (fun hh => hk hh.symm)]; exact hj

/-- no longer in place -/
def Gone (t : Start) (s : St) : Prop := Moved t s ∨ Shrunk t s

theorem op_gone {grow : Nat → Nat} {t : Start} {s s' : St} {o : Op}
    (hi : Gone t s) (e : runOp grow s o = .ok s') : Gone t s' := by
  rcases hi with hi | hi
  · exact op_moved hi e
  · exact .inr (op_shrunk hi e)

theorem ops_ind {grow : Nat → Nat} {P : St → Prop}
    (hP : ∀ s s' o, P s → runOp grow s o = .ok s' → P s') :
    ∀ (l : List Op) (s s' : St), P s → runOps grow s l = .ok s' → P s' := by
  intro l
  induction l with
  | nil => intro s s' hp e; simp only [runOps] at e; injection e with e; subst e; exact hp
  | cons o r ih =>
    intro s s' hp e
    simp only [runOps] at e
    split at e
    · rename_i s1 h1
      exact ih s1 s' (hP _ _ _ hp h1) e
    · cases e

theorem inPlace_called {t : Start} {s : St} {h : Handler} (hi : InPlace t s) :
    InPlace t { s with log := .called h :: s.log } := by
  obtain ⟨hf, hd, ha, j, xs, hj, h1, h2, h3, h4, h5⟩ := hi
  refine ⟨hf, by rw [dels_called]; exact hd, by rw [adds_called]; exact ha, j, xs, hj, h1, h2, h3, ?_, h5⟩
  rw [adds_called]; exact h4

theorem gone_called {t : Start} {s : St} {h : Handler} (hi : Gone t s) :
    Gone t { s with log := .called h :: s.log } := by
  rcases hi with ⟨hf, hd, ha, hx, j, hj, h1, h2⟩ | ⟨hf, hd⟩
  · exact .inl ⟨hf, by rw [dels_called]; exact hd, by rw [adds_called]; exact ha,
      by rw [adds_called]; exact hx, j, hj, h1, h2⟩
  · exact .inr ⟨hf, by rw [dels_called]; exact hd⟩

theorem shrunk_called {t : Start} {s : St} {h : Handler} (hi : Shrunk t s) :
    Shrunk t { s with log := .called h :: s.log } :=
  ⟨hi.1, by rw [dels_called]; exact hi.2⟩

theorem call_inPlace {grow : Nat → Nat} {env : Env} {t : Start} (hn : t.hs ≠ []) {s s' : St}
    {h : Handler} (hi : InPlace t s) (e : call grow env s h = .ok s') :
    InPlace t s' ∨ Gone t s' := by
  refine ops_ind (P := fun s => InPlace t s ∨ Gone t s) ?_ _ _ _ (.inl (inPlace_called hi)) e
  intro s s' o hp e
  rcases hp with hp | hp
  · exact op_inPlace hn hp e
  · exact .inr (op_gone hp e)

theorem call_gone {grow : Nat → Nat} {env : Env} {t : Start} {s s' : St}
    {h : Handler} (hi : Gone t s) (e : call grow env s h = .ok s') : Gone t s' :=
  ops_ind (P := Gone t) (fun _ _ _ hp e => op_gone hp e) _ _ _ (gone_called hi) e

theorem call_shrunk {grow : Nat → Nat} {env : Env} {t : Start} {s s' : St}
    {h : Handler} (hi : Shrunk t s) (e : call grow env s h = .ok s') : Shrunk t s' :=
  ops_ind (P := Shrunk t) (fun _ _ _ hp e => op_shrunk hp e) _ _ _ (shrunk_called hi) e

theorem each_ind {grow : Nat → Nat} {env : Env} {P : St → Prop}
    (hP : ∀ s s' h, P s → call grow env s h = .ok s' → P s') :
    ∀ (l : List Handler) (s s' : St), P s → callEach grow env s l = .ok s' → P s' := by
  intro l
  induction l with
  | nil => intro s s' hp e; simp only [callEach] at e; injection e with e; subst e; exact hp
  | cons o r ih =>
    intro s s' hp e
    simp only [callEach] at e
    split at e
    · rename_i s1 h1
      exact ih s1 s' (hP _ _ _ hp h1) e
    · cases e

theorem not_both {t : Start} {s : St} (hi : InPlace t s) (hg : Gone t s) : False := by
  obtain ⟨_, hd, _, j, xs, _, _, _, _, h4, h5⟩ := hi
  rcases hg with ⟨_, _, _, hx, _⟩ | ⟨_, hd'⟩
  · omega
  · omega

/-- As long as the list is in place before the last call, the loop is the plain loop over the
list as it was. -/
theorem loop_eq {grow : Nat → Nat} {env : Env} {t : Start} (hn : t.hs ≠ []) :
    ∀ (q p : List Handler) (s s1 : St), t.hs = p ++ q → InPlace t s →
      callEach grow env s q.dropLast = .ok s1 → InPlace t s1 →
      loop grow env t.k t.buf p.length q.length s = callEach grow env s q := by
  intro q
  induction q with
  | nil => intro p s s1 _ _ _ _; rfl
  | cons h q ih =>
    intro p s s1 hs hi e hi1
    obtain ⟨j, xs, hj, h1, h2, h3, h4, h5⟩ := hi.2.2.2
    have hget : j.internal.items[p.length]? = some h := by
      rw [h1, hs]; simp
    simp only [List.length_cons, loop, callEach, hj, h3, if_true, hget]
    cases hc : call grow env s h with
    | error f => rfl
    | ok s' =>
      simp only
      cases q with
      | nil => rfl
      | cons h' q' =>
        have e' : callEach grow env s' (h' :: q').dropLast = .ok s1 := by
          simp only [List.dropLast, callEach, hc] at e
          exact e
        have hi' : InPlace t s' := by
          rcases call_inPlace hn hi hc with hh | hh
          · exact hh
          · exact (not_both hi1 (each_ind (P := Gone t) (fun _ _ _ hp e => call_gone hp e) _ _ _ hh e')).elim
        have := ih (p ++ [h]) s' s1 (by rw [hs]; simp) hi' e' hi1
        simpa using this

/-- Once the list has moved, the next handler is read from the old allocation. -/
theorem loop_moved {grow : Nat → Nat} {env : Env} {t : Start} (hn : t.hs ≠ []) (hb : t.buf < t.fresh) :
    ∀ (q1 q2 p : List Handler) (s s1 : St), t.hs = p ++ (q1 ++ q2) → q2 ≠ [] → InPlace t s →
      callEach grow env s q1 = .ok s1 → Moved t s1 →
      loop grow env t.k t.buf p.length (q1 ++ q2).length s = .error .dangling := by
  intro q1
  induction q1 with
  | nil =>
    intro q2 p s s1 _ _ hi e hm
    simp only [callEach] at e
    injection e with e
    subst e
    exact (not_both hi (.inl hm)).elim
  | cons h q ih =>
    intro q2 p s s1 hs hq2 hi e hm
    obtain ⟨j, xs, hj, h1, h2, h3, h4, h5⟩ := hi.2.2.2
    have hget : j.internal.items[p.length]? = some h := by
      rw [h1, hs]; simp
    simp only [List.cons_append, List.length_cons, loop, hj, h3, if_true, hget]
    simp only [callEach] at e
    cases hc : call grow env s h with
    | error f => rw [hc] at e; simp at e
    | ok s' =>
      rw [hc] at e
      simp only at e ⊢
      rcases call_inPlace hn hi hc with hh | hh
      · have := ih q2 (p ++ [h]) s' s1 (by rw [hs]; simp) hq2 hh e hm
        simpa using this
      · rcases hh with hh | hh
        · obtain ⟨_, _, _, _, j', hj', _, hb'⟩ := hh
          have hlen : ∃ m, (q ++ q2).length = m + 1 := by
            cases q2 with
            | nil => exact (hq2 rfl).elim
            | cons a r => exact ⟨(q ++ r).length, by simp; omega⟩
          obtain ⟨m, hm'⟩ := hlen
          have hne : j'.internal.buf ≠ t.buf := by omega
          rw [hm']
          simp only [loop, hj', if_neg hne]
        · have := each_ind (P := Shrunk t) (fun _ _ _ hp e => call_shrunk hp e) _ _ _ hh e
          have h6 := this.2
          have h7 := hm.2.1
          omega

/-- The state after the external handlers got their messages. -/
def enqueued (s : St) (j : Joint) : St :=
  { s with log := (j.external.items.map Ev.enqueued).reverse ++ s.log }

/-- the start of a delivery -/
def startOf (s : St) (k : Key) (j : Joint) : Start :=
  { k := k, hs := j.internal.items, cap := j.internal.cap, buf := j.internal.buf, fresh := s.fresh,
    a0 := adds k s, d0 := dels k s }

theorem adds_enqueued {k : Key} {s : St} {j : Joint} : adds k (enqueued s j) = adds k s := by
  have : ∀ (l : List Handler) (f : Ev → Bool), (∀ h, f (.enqueued h) = false) →
      (l.map Ev.enqueued).countP f = 0 := by
    intro l f hf; induction l with
    | nil => rfl
    | cons a r ih => simp [List.countP_cons, ih, hf]
  simp only [adds, enqueued, List.countP_append, List.countP_reverse]
  rw [this _ _ (by intro h; rfl)]; omega

theorem dels_enqueued {k : Key} {s : St} {j : Joint} : dels k (enqueued s j) = dels k s := by
  have : ∀ (l : List Handler) (f : Ev → Bool), (∀ h, f (.enqueued h) = false) →
      (l.map Ev.enqueued).countP f = 0 := by
    intro l f hf; induction l with
    | nil => rfl
    | cons a r ih => simp [List.countP_cons, ih, hf]
  simp only [dels, enqueued, List.countP_append, List.countP_reverse]
  rw [this _ _ (by intro h; rfl)]; omega

theorem start_inPlace {s : St} {k : Key} {j : Joint} (hj : s.map.find k = some j)
    (hc : j.internal.items.length ≤ j.internal.cap) :
    InPlace (startOf s k j) (enqueued s j) := by
  refine ⟨Nat.le_refl _, dels_enqueued, ?_, j, [], hj, by simp [startOf], rfl, rfl, ?_, by simpa [startOf] using hc⟩
  · rw [adds_enqueued]; exact Nat.le_refl _
  · rw [adds_enqueued]; simp [startOf]

/-- **C61 (delivery).** For every user code: if no internal handler of the message's address and
type was unsubscribed, and not more were subscribed than the list has room for, by the time the
last handler is called, then exactly the handlers subscribed when the delivery began are called,
each once, in order — whatever the handlers, the last one included, do to the table. -/
theorem C61_delivery_partial (grow : Nat → Nat) (env : Env) (s : St) (k : Key) (j : Joint)
    (hj : s.map.find k = some j) (hc : j.internal.items.length ≤ j.internal.cap) (s1 : St)
    (h1 : callEach grow env (enqueued s j) j.internal.items.dropLast = .ok s1)
    (hd : dels k s1 = dels k s)
    (ha : j.internal.items.length + (adds k s1 - adds k s) ≤ j.internal.cap) :
    deliver grow env s k = callEach grow env (enqueued s j) j.internal.items := by
  unfold deliver
  simp only [hj]
  by_cases hn : j.internal.items = []
  · simp only [hn, List.length_nil, loop, callEach]; rfl
  · have hi := start_inPlace hj hc
    have hi1 : InPlace (startOf s k j) s1 := by
      have hh := each_ind (P := fun s' => InPlace (startOf s k j) s' ∨ Gone (startOf s k j) s')
        (fun s s' h hp e => by
          rcases hp with hp | hp
          · exact call_inPlace hn hp e
          · exact .inr (call_gone hp e)) _ _ _ (.inl hi) h1
      rcases hh with hh | hh
      · exact hh
      · rcases hh with ⟨_, _, _, hx, _⟩ | ⟨_, hx⟩
        · simp only [startOf] at hx; omega
        · simp only [startOf] at hx; omega
    exact loop_eq (t := startOf s k j) hn j.internal.items [] (enqueued s j) s1 rfl hi h1 hi1

/-- **C61 (one handler).** A list of one handler may be changed in any way while the handler is
called: nothing is read afterwards. This is the case of the plugin that unsubscribes itself from
the confirmations of its own unsubscriptions (`plugin/lifetime.cpp:107-125`), at the end of every
actor. -/
theorem C61_single (grow : Nat → Nat) (env : Env) (s : St) (k : Key) (j : Joint) (h : Handler)
    (hj : s.map.find k = some j) (hs : j.internal.items = [h])
    (hc : 1 ≤ j.internal.cap) :
    deliver grow env s k = callEach grow env (enqueued s j) [h] := by
  have := C61_delivery_partial grow env s k j hj (by rw [hs]; simpa using hc) (enqueued s j)
    (by rw [hs]; rfl) dels_enqueued (by rw [hs, adds_enqueued]; simpa using hc)
  rw [hs] at this
  exact this

/-- **C61 (converse, subscriptions).** If the handlers called before the last one subscribe more
handlers to the same address and type than the list has room for, the next handler is read from
memory that has been given back. -/
theorem C61_moved_faults (grow : Nat → Nat) (env : Env) (s : St) (k : Key) (j : Joint)
    (hj : s.map.find k = some j) (hc : j.internal.items.length ≤ j.internal.cap)
    (hb : j.internal.buf < s.fresh) (p q : List Handler) (hs : j.internal.items = p ++ q)
    (hq : q ≠ []) (s1 : St) (h1 : callEach grow env (enqueued s j) p = .ok s1)
    (hd : dels k s1 = dels k s)
    (ha : j.internal.cap < j.internal.items.length + (adds k s1 - adds k s)) :
    deliver grow env s k = .error .dangling := by
  unfold deliver
  simp only [hj]
  have hn : (startOf s k j).hs ≠ [] := by
    simp only [startOf, hs]
    intro hh
    exact hq (List.append_eq_nil_iff.mp hh).2
  have hi := start_inPlace hj hc
  have hm : Moved (startOf s k j) s1 := by
    have hh := each_ind (P := fun s' => InPlace (startOf s k j) s' ∨ Gone (startOf s k j) s')
      (fun s s' h hp e => by
        rcases hp with hp | hp
        · exact call_inPlace hn hp e
        · exact .inr (call_gone hp e)) _ _ _ (.inl hi) h1
    rcases hh with hh | hh
    · obtain ⟨_, _, _, j', xs, _, _, _, _, h4, h5⟩ := hh
      simp only [startOf] at h4 h5
      omega
    · rcases hh with hh | ⟨_, hx⟩
      · exact hh
      · simp only [startOf] at hx; omega
  have := loop_moved (t := startOf s k j) hn hb p q [] (enqueued s j) s1 (by simpa [startOf] using hs) hq hi h1 hm
  rw [hs]
  exact this

/-! ### Unsubscriptions during a delivery -/

/-- the list of `k` cannot be walked to its former end `n` in the allocation `b` any more -/
def Lost (k : Key) (b n : Nat) (s : St) : Prop :=
  b < s.fresh ∧ ∀ j, s.map.find k = some j → j.internal.buf = b → j.internal.items.length < n

/-- no handler ever subscribes an internal handler to `k` -/
def NeverAdds (env : Env) (k : Key) : Prop := ∀ h s h', .subscribe k h' true ∉ env h s

theorem op_lost {grow : Nat → Nat} {k : Key} {b n : Nat} {s s' : St} {o : Op}
    (ho : ∀ h', o ≠ .subscribe k h' true) (hl : Lost k b n s) (e : runOp grow s o = .ok s') :
    Lost k b n s' := by
  cases o with
  | subscribe k' h i =>
    simp only [runOp] at e
    injection e with e
    subst e
    refine ⟨by have := hl.1; simp only [subscribe]; omega, ?_⟩
    intro j hj hbuf
    rw [find_subscribe] at hj
    split at hj
    · rename_i hk
      subst hk
      cases i
      · simp only [Bool.false_eq_true, if_false] at hj
        injection hj with hj
        subst hj
        cases hf : s.map.find k with
        | some j =>
          have hg : getJoint s k = j := by simp [getJoint, hf]
          rw [hg] at hbuf ⊢
          exact hl.2 j hf hbuf
        | none =>
          have h1 := hl.1
          simp only [getJoint, hf] at hbuf
          omega
      · exact (ho h rfl).elim
    · exact hl.2 j hj hbuf
  | forget k' h i =>
    simp only [runOp] at e
    obtain ⟨j', hj', hm, hfr, hlog, hfind⟩ := forget_ok e
    refine ⟨by have := hl.1; omega, ?_⟩
    intro j hj hbuf
    rw [hfind] at hj
    by_cases hk : k = k'
    · rw [if_pos hk] at hj
      subst hk
      cases i
      · simp only [Bool.false_eq_true, if_false] at hj
        split at hj
        · cases hj
        · injection hj with hj
          subst hj
          exact hl.2 j' hj' hbuf
      · simp only [if_true] at hj
        split at hj
        · cases hj
        · injection hj with hj
          subst hj
          simp only [Vec.drop] at hbuf ⊢
          have := hl.2 j' hj' hbuf
          have h2 := List.length_erase_le (a := h) (l := j'.internal.items)
          omega
    · rw [if_neg hk] at hj
      exact hl.2 j hj hbuf

/-- the list as it was, with exactly the same handlers -/
def Same (t : Start) (s : St) : Prop :=
  t.fresh ≤ s.fresh ∧ dels t.k s = t.d0 ∧ ∃ j, s.map.find t.k = some j ∧ j.internal.items = t.hs ∧
    j.internal.buf = t.buf

theorem op_same {grow : Nat → Nat} {t : Start} (hn : t.hs ≠ []) (hb : t.buf < t.fresh) {s s' : St} {o : Op}
    (ho : ∀ h', o ≠ .subscribe t.k h' true) (hi : Same t s) (e : runOp grow s o = .ok s') :
    Same t s' ∨ Lost t.k t.buf t.hs.length s' := by
  obtain ⟨hf, hd, j, hj, hit, hbuf⟩ := hi
  cases o with
  | subscribe k' h i =>
    simp only [runOp] at e
    injection e with e
    subst e
    left
    refine ⟨by simp only [subscribe]; omega, by rw [dels_subscribe]; exact hd, ?_⟩
    rw [find_subscribe]
    by_cases hk : t.k = k'
    · rw [if_pos hk]
      subst hk
      have hg : getJoint s t.k = j := by simp [getJoint, hj]
      cases i
      · rw [hg]; exact ⟨_, rfl, hit, hbuf⟩
      · exact (ho h rfl).elim
    · rw [if_neg hk]; exact ⟨j, hj, hit, hbuf⟩
  | forget k' h i =>
    simp only [runOp] at e
    obtain ⟨j', hj', hm, hfr, hlog, hfind⟩ := forget_ok e
    by_cases hk : k' = t.k
    · subst hk
      have : j' = j := by rw [hj] at hj'; injection hj' with hh; exact hh.symm
      subst this
      cases i
      · left
        refine ⟨by omega, ?_, ?_⟩
        · simp only [dels, hlog]; rw [← hd]; simp [dels]
        · have := hfind t.k
          simp only [if_true, Bool.false_eq_true, if_false] at this
          rw [if_neg (by rw [hit]; simp [hn])] at this
          exact ⟨_, this, hit, hbuf⟩
      · right
        refine ⟨by omega, ?_⟩
        intro j2 hj2 _
        rw [hfind] at hj2
        simp only [if_true] at hj2 hm
        split at hj2
        · cases hj2
        · injection hj2 with hj2
          subst hj2
          simp only [Vec.drop]
          rw [hit] at hm ⊢
          have h1 := List.length_erase_of_mem hm
          have h2 : 0 < t.hs.length := List.length_pos_of_mem hm
          omega
    · left
      refine ⟨by omega, ?_, j, ?_, hit, hbuf⟩
      · rw [← hd]; cases i <;> simp [dels, hlog, hk]
      · rw [hfind, if_neg (fun hh => hk hh.symm)]; exact hj

theorem ops_ind' {grow : Nat → Nat} {P : St → Prop} {Q : Op → Prop}
    (hP : ∀ s s' o, Q o → P s → runOp grow s o = .ok s' → P s') :
    ∀ (l : List Op) (s s' : St), (∀ o ∈ l, Q o) → P s → runOps grow s l = .ok s' → P s' := by
  intro l
  induction l with
  | nil => intro s s' _ hp e; simp only [runOps] at e; injection e with e; subst e; exact hp
  | cons o r ih =>
    intro s s' hq hp e
    simp only [runOps] at e
    split at e
    · rename_i s1 h1
      exact ih s1 s' (fun o ho => hq o (by simp [ho])) (hP _ _ _ (hq o (by simp)) hp h1) e
    · cases e

theorem call_lost {grow : Nat → Nat} {env : Env} {k : Key} {b n : Nat} (hna : NeverAdds env k)
    {s s' : St} {h : Handler} (hl : Lost k b n s) (e : call grow env s h = .ok s') :
    Lost k b n s' := by
  refine ops_ind' (P := Lost k b n) (Q := fun o => ∀ h', o ≠ .subscribe k h' true)
    (fun _ _ _ ho hp e => op_lost ho hp e) _ _ _ ?_ (by exact hl) e
  intro o ho h' hh
  subst hh
  exact hna h s h' ho

theorem call_same {grow : Nat → Nat} {env : Env} {t : Start} (hn : t.hs ≠ []) (hb : t.buf < t.fresh)
    (hna : NeverAdds env t.k) {s s' : St} {h : Handler} (hi : Same t s)
    (e : call grow env s h = .ok s') : Same t s' ∨ Lost t.k t.buf t.hs.length s' := by
  refine ops_ind' (P := fun s => Same t s ∨ Lost t.k t.buf t.hs.length s)
    (Q := fun o => ∀ h', o ≠ .subscribe t.k h' true) ?_ _ _ _ ?_ (.inl ?_) e
  · intro s s' o ho hp e
    rcases hp with hp | hp
    · exact op_same hn hb ho hp e
    · exact .inr (op_lost ho hp e)
  · intro o ho h' hh
    subst hh
    exact hna h s h' ho
  · obtain ⟨hf, hd, j, hj, hit, hbuf⟩ := hi
    exact ⟨hf, by rw [dels_called]; exact hd, j, hj, hit, hbuf⟩

theorem loop_lost {grow : Nat → Nat} {env : Env} {k : Key} {b n : Nat} (hna : NeverAdds env k) :
    ∀ (m i : Nat) (s s' : St), i + (m + 1) = n → Lost k b n s →
      loop grow env k b i (m + 1) s ≠ .ok s' := by
  intro m
  induction m with
  | zero =>
    intro i s s' hin hl hh
    simp only [loop] at hh
    split at hh
    · cases hh
    · rename_i j hj
      split at hh
      · rename_i hb
        split at hh
        · cases hh
        · rename_i h hg
          have h1 := hl.2 j hj hb
          have h2 := (List.getElem?_eq_some_iff.mp hg).1
          omega
      · cases hh
  | succ m ih =>
    intro i s s' hin hl hh
    rw [loop] at hh
    split at hh
    · cases hh
    · split at hh
      · split at hh
        · cases hh
        · split at hh
          · rename_i s2 h2
            exact ih (i + 1) s2 s' (by omega) (call_lost hna hl h2) hh
          · cases hh
      · cases hh

theorem loop_removed {grow : Nat → Nat} {env : Env} {t : Start} (hn : t.hs ≠ []) (hb : t.buf < t.fresh)
    (hna : NeverAdds env t.k) :
    ∀ (q1 q2 p : List Handler) (s s1 s' : St), t.hs = p ++ (q1 ++ q2) → q2 ≠ [] → Same t s →
      callEach grow env s q1 = .ok s1 → dels t.k s1 ≠ t.d0 →
      loop grow env t.k t.buf p.length (q1 ++ q2).length s ≠ .ok s' := by
  intro q1
  induction q1 with
  | nil =>
    intro q2 p s s1 s' _ _ hi e hm
    simp only [callEach] at e
    injection e with e
    subst e
    exact (hm hi.2.1).elim
  | cons h q ih =>
    intro q2 p s s1 s' hs hq2 hi e hm
    obtain ⟨j, hj, hit, hbuf⟩ := hi.2.2
    have hget : j.internal.items[p.length]? = some h := by
      rw [hit, hs]; simp
    simp only [List.cons_append, List.length_cons, loop, hj, hbuf, if_true, hget]
    simp only [callEach] at e
    cases hc : call grow env s h with
    | error f => rw [hc] at e; simp at e
    | ok s2 =>
      rw [hc] at e
      simp only at e ⊢
      rcases call_same hn hb hna hi hc with hh | hh
      · have := ih q2 (p ++ [h]) s2 s1 s' (by rw [hs]; simp) hq2 hh e hm
        simpa using this
      · have hlen : ∃ m, (q ++ q2).length = m + 1 := by
          cases q2 with
          | nil => exact (hq2 rfl).elim
          | cons a r => exact ⟨(q ++ r).length, by simp; omega⟩
        obtain ⟨m, hm'⟩ := hlen
        rw [hm']
        refine loop_lost hna m (p.length + 1) s2 s' ?_ hh
        have : t.hs.length = p.length + (1 + (q ++ q2).length) := by rw [hs]; simp; omega
        omega

/-- **C61 (converse, unsubscriptions).** If no handler subscribes to the same address and type,
but one of those called before the last one unsubscribes one of them, the loop never ends well:
it reads behind the end of the list or memory that has been given back. -/
theorem C61_removed_faults (grow : Nat → Nat) (env : Env) (s : St) (k : Key) (j : Joint)
    (hj : s.map.find k = some j) (hb : j.internal.buf < s.fresh) (hna : NeverAdds env k)
    (p q : List Handler) (hs : j.internal.items = p ++ q) (hq : q ≠ []) (s1 : St)
    (h1 : callEach grow env (enqueued s j) p = .ok s1) (hd : dels k s1 ≠ dels k s) :
    ∃ f, deliver grow env s k = .error f := by
  cases hr : deliver grow env s k with
  | error f => exact ⟨f, rfl⟩
  | ok s' =>
    exfalso
    unfold deliver at hr
    simp only [hj] at hr
    have hn : (startOf s k j).hs ≠ [] := by
      simp only [startOf, hs]
      intro hh
      exact hq (List.append_eq_nil_iff.mp hh).2
    have hi : Same (startOf s k j) (enqueued s j) :=
      ⟨Nat.le_refl _, dels_enqueued, j, hj, rfl, rfl⟩
    rw [hs] at hr
    exact loop_removed (t := startOf s k j) hn hb hna p q [] (enqueued s j) s1 s'
      (by simpa [startOf] using hs) hq hi h1 hd hr

/-! ### Counterexamples and cases of the delivery -/

/-- two handlers, 1 and 2, of the key 7; the list has no room for a third -/
def two (cap : Nat) : St :=
  { map := [(7, { internal := { items := [1, 2], cap := cap, buf := 0 }
                  external := { items := [9], cap := 1, buf := 1 } })], fresh := 2, log := [] }

/-- Handler 1 subscribes handler 3 to the same address and type: the second handler is read from
memory that was given back, if the list had no room; the same code works if it had. -/
theorem C61_subscribe_counterexample :
    ∃ env : Env, deliver (· * 2) env (two 2) 7 = .error .dangling ∧
      ∃ s', deliver (· * 2) env (two 4) 7 = .ok s' ∧
        s'.log = [.called 2, .added 7 3 true, .called 1, .enqueued 9] :=
  ⟨fun h _ => if h = 1 then [.subscribe 7 3 true] else [], rfl, _, rfl, rfl⟩

/-- Handler 1 is unsubscribed while it is called: the loop runs behind the end of the list. -/
theorem C61_unsubscribe_counterexample :
    ∃ env : Env, deliver (· * 2) env (two 4) 7 = .error .pastEnd :=
  ⟨fun h _ => if h = 1 then [.forget 7 1 true] else [], rfl⟩

/-- Handler 1 is replaced by handler 3 while it is called: the delivery ends, but handler 2 is
never called and handler 3 is. -/
theorem C61_skipped_counterexample :
    ∃ env : Env, ∃ s', deliver (· * 2) env (two 4) 7 = .ok s' ∧
      .called 2 ∉ s'.log ∧ .called 3 ∈ s'.log :=
  ⟨fun h _ => if h = 1 then [.forget 7 1 true, .subscribe 7 3 true] else [], _, rfl, by decide, by decide⟩

/-- `C61_delivery_partial` applies to a delivery in which the first handler adds two handlers and
the last one removes everything. -/
example : ∃ env : Env, ∃ s', deliver (· * 2) env (two 4) 7 = .ok s' ∧
    s'.map.find 7 = some { internal := { items := [], cap := 4, buf := 0 }
                           external := { items := [9], cap := 1, buf := 1 } } ∧
    callEach (· * 2) env (enqueued (two 4) { internal := { items := [1, 2], cap := 4, buf := 0 }
                                             external := { items := [9], cap := 1, buf := 1 } }) [1, 2] = .ok s' :=
  ⟨fun h _ => if h = 1 then [.subscribe 7 3 true, .subscribe 7 4 true, .subscribe 8 4 true]
    else [.forget 7 1 true, .forget 7 2 true, .forget 7 3 true, .forget 7 4 true, .forget 8 4 true],
    _, rfl, by decide, rfl⟩

/-- `C61_single`: a handler that unsubscribes itself, with which the whole entry goes. -/
example : ∃ env : Env, ∃ s', deliver (· * 2) env
    { map := [(7, { internal := { items := [1], cap := 1, buf := 0 }
                    external := { items := [], cap := 0, buf := 1 } })], fresh := 2, log := [] } 7 = .ok s' ∧
    s'.map.find 7 = none ∧ s'.log = [.removed 7 1 true, .called 1] :=
  ⟨fun _ _ => [.forget 7 1 true], _, rfl, by decide, rfl⟩

/-! ### Timers and links -/

/-- number of elements a callback tries to insert -/
def inserts (l : List MapOp) : Nat :=
  l.countP (fun o => match o with | .insert _ => true | _ => false)

theorem length_erase_le (m : AMap Nat Nat) (k : Nat) : (AMap.erase m k).length ≤ m.length :=
  List.length_filter_le _ _

theorem ops_valid {grow : Nat → Nat} {it : Iter} : ∀ (l : List MapOp) (m : UMap),
    m.valid it = true → m.entries.length + inserts l ≤ m.buckets → .remove it.key ∉ l →
    (m.ops grow l).valid it = true := by
  intro l
  induction l with
  | nil => intro m h _ _; exact h
  | cons o r ih =>
    intro m h hb hr
    simp only [UMap.ops, List.foldl_cons]
    simp only [UMap.valid, Bool.and_eq_true, decide_eq_true_eq] at h
    obtain ⟨he, hf⟩ := h
    cases o with
    | insert k =>
      have hi : inserts (.insert k :: r) = inserts r + 1 := by simp [inserts, List.countP_cons]
      rw [hi] at hb
      apply ih
      · simp only [UMap.op, UMap.insert]
        split
        · simp [UMap.valid, he, hf]
        · rename_i hk
          rw [if_neg (by omega)]
          have hne : k ≠ it.key := by rintro rfl; rw [hk] at hf; cases hf
          simp [UMap.valid, he, AMap.find, hne, hf]
      · simp only [UMap.op, UMap.insert]
        split
        · omega
        · rw [if_neg (by omega)]
          simp only [List.length_cons]; omega
      · intro hh; exact hr (by simp [hh])
    | remove k =>
      have hi : inserts (.remove k :: r) = inserts r := by simp [inserts]
      rw [hi] at hb
      have hne : it.key ≠ k := by rintro rfl; exact hr (by simp)
      apply ih
      · simp [UMap.op, UMap.remove, UMap.valid, he, AMap.find_erase, hne, hf]
      · have := length_erase_le m.entries k
        simp only [UMap.op, UMap.remove]; omega
      · intro hh; exact hr (by simp [hh])

theorem ops_epoch {grow : Nat → Nat} : ∀ (l : List MapOp) (m : UMap), m.epoch ≤ (m.ops grow l).epoch := by
  intro l
  induction l with
  | nil => intro m; exact Nat.le_refl _
  | cons o r ih =>
    intro m
    refine Nat.le_trans ?_ (ih _)
    cases o with
    | insert k =>
      simp only [UMap.op, UMap.insert]
      split
      · exact Nat.le_refl _
      · split <;> simp
    | remove k => exact Nat.le_refl _

theorem ops_rehashed {grow : Nat → Nat} {m : UMap} {k : Nat} {r : List MapOp} {it : Iter}
    (hk : m.entries.find k = none) (hf : m.buckets ≤ m.entries.length) (he : it.epoch = m.epoch) :
    (m.ops grow (.insert k :: r)).valid it = false := by
  have h1 : (m.ops grow (.insert k :: r)) = (m.insert grow k).ops grow r := rfl
  have h2 : (m.insert grow k).epoch = m.epoch + 1 := by
    simp only [UMap.insert, hk]
    rw [if_pos (by omega)]
  have h3 := ops_epoch (grow := grow) r (m.insert grow k)
  rw [h1]
  simp only [UMap.valid, Bool.and_eq_false_iff, decide_eq_false_iff_not]
  left
  omega

theorem find_valid {m : UMap} {id : Nat} {it : Iter} (h : m.find id = some it) :
    m.valid it = true ∧ it.key = id ∧ it.epoch = m.epoch := by
  simp only [UMap.find, Option.map_eq_some_iff] at h
  obtain ⟨n, hn, rfl⟩ := h
  simp [UMap.valid, hn]

/-- **C61 (timers).** A callback of a timer may start timers, as long as the table has buckets for
them, and cancel other timers: afterwards exactly the entry of the timer is erased, from what the
callback left. -/
theorem C61_timer_partial (grow : Nat → Nat) (cb : UMap → List MapOp) (m : UMap) (id n : Nat)
    (hid : m.entries.find id = some n)
    (hroom : m.entries.length + inserts (cb m) ≤ m.buckets) (hself : .remove id ∉ cb m) :
    onTimerTrigger grow cb m id = .ok ((m.ops grow (cb m)).remove id) := by
  have hf : m.find id = some { key := id, node := n, epoch := m.epoch } := by simp [UMap.find, hid]
  have hv := ops_valid (grow := grow) (cb m) m (find_valid hf).1 hroom hself
  simp only [onTimerTrigger, hf, hv, if_true]

/-- **C61 (converse, timers).** If the table is full and the callback starts a timer, as the
timer that watches the shutdown flag always does (`supervisor.cpp:153-162`), the table is rehashed
and the iterator is used after that. -/
theorem C61_timer_rehash_faults (grow : Nat → Nat) (cb : UMap → List MapOp) (m : UMap) (id n k : Nat)
    (r : List MapOp) (hid : m.entries.find id = some n) (hfull : m.buckets ≤ m.entries.length)
    (hcb : cb m = .insert k :: r) (hk : m.entries.find k = none) :
    onTimerTrigger grow cb m id = .error .invalidIterator := by
  have hf : m.find id = some { key := id, node := n, epoch := m.epoch } := by simp [UMap.find, hid]
  have hv := ops_rehashed (grow := grow) (r := r) (it := { key := id, node := n, epoch := m.epoch }) hk hfull rfl
  rw [← hcb] at hv
  simp only [onTimerTrigger, hf, hv, Bool.false_eq_true, if_false]

theorem mapOp_gone {grow : Nat → Nat} {it : Iter} {m : UMap} (o : MapOp) (hn : it.node < m.node)
    (hg : m.entries.find it.key ≠ some it.node) :
    it.node < (m.op grow o).node ∧ (m.op grow o).entries.find it.key ≠ some it.node := by
  cases o with
  | insert k =>
    simp only [UMap.op, UMap.insert]
    split
    · exact ⟨hn, hg⟩
    · have hf : AMap.find ((k, m.node) :: m.entries) it.key ≠ some it.node := by
        simp only [AMap.find]
        split
        · intro h; injection h with h; omega
        · exact hg
      split
      · exact ⟨Nat.lt_succ_of_lt hn, hf⟩
      · exact ⟨Nat.lt_succ_of_lt hn, hf⟩
  | remove k =>
    refine ⟨hn, ?_⟩
    simp only [UMap.op, UMap.remove, AMap.find_erase]
    split
    · simp
    · exact hg

theorem ops_gone {grow : Nat → Nat} {it : Iter} : ∀ (l : List MapOp) (m : UMap), it.node < m.node →
    m.entries.find it.key ≠ some it.node → (m.ops grow l).entries.find it.key ≠ some it.node := by
  intro l
  induction l with
  | nil => intro m _ hg; exact hg
  | cons o r ih =>
    intro m hn hg
    have := mapOp_gone (grow := grow) o hn hg
    exact ih (m.op grow o) this.1 this.2

theorem op_node {grow : Nat → Nat} {m : UMap} (o : MapOp) : m.node ≤ (m.op grow o).node := by
  cases o with
  | insert k =>
    simp only [UMap.op, UMap.insert]
    split
    · exact Nat.le_refl _
    · split <;> simp
  | remove k => exact Nat.le_refl _

theorem ops_removed {grow : Nat → Nat} {it : Iter} : ∀ (l : List MapOp) (m : UMap), it.node < m.node →
    .remove it.key ∈ l → (m.ops grow l).valid it = false := by
  intro l
  induction l with
  | nil => intro m _ h; cases h
  | cons o r ih =>
    intro m hn h
    have h1 : m.ops grow (o :: r) = (m.op grow o).ops grow r := rfl
    rw [h1]
    rcases List.mem_cons.1 h with e | e
    · subst e
      have hg := ops_gone (grow := grow) (it := it) r (m.op grow (.remove it.key)) hn
        (by simp [UMap.op, UMap.remove])
      simp only [UMap.valid, Bool.and_eq_false_iff, decide_eq_false_iff_not]
      exact .inr hg
    · exact ih _ (Nat.lt_of_lt_of_le hn (op_node o)) e

/-- **C61 (converse, a timer that cancels itself).** If the callback of a timer cancels this very timer (which calls the callback
once more, with `cancelled`), the iterator is erased twice. -/
theorem C61_timer_self_faults (grow : Nat → Nat) (cb : UMap → List MapOp) (m : UMap) (id n : Nat)
    (hid : m.entries.find id = some n) (hn : n < m.node) (hself : .remove id ∈ cb m) :
    onTimerTrigger grow cb m id = .error .invalidIterator := by
  have hf : m.find id = some { key := id, node := n, epoch := m.epoch } := by simp [UMap.find, hid]
  have hv := ops_removed (grow := grow) (it := { key := id, node := n, epoch := m.epoch }) (cb m) m hn hself
  simp only [onTimerTrigger, hf, hv, Bool.false_eq_true, if_false]

/-- It starts another timer and cancels itself. -/
example : onTimerTrigger (· * 2) (fun _ => [.insert 6, .remove 5]) { entries := [(5, 0)], buckets := 4, epoch := 0, node := 1 } 5
    = .error .invalidIterator := rfl

/-- **C61 (links).** The callback of a link may ask for further links, as long as the table of
servers has buckets for them: afterwards the record of this link is the one that is updated. -/
theorem C61_link_partial (grow : Nat → Nat) (cb : UMap → List MapOp) (m : UMap) (addr n : Nat)
    (hid : m.entries.find addr = some n)
    (hroom : m.entries.length + inserts (cb m) ≤ m.buckets) (hself : .remove addr ∉ cb m) :
    onLinkResponse grow cb m addr = .ok (m.ops grow (cb m), some n) := by
  have hf : m.find addr = some { key := addr, node := n, epoch := m.epoch } := by simp [UMap.find, hid]
  have hv := ops_valid (grow := grow) (cb m) m (find_valid hf).1 hroom hself
  simp only [onLinkResponse, hf, hv, if_true]

/-- **C61 (converse, links).** If the table of servers is full and the callback asks for another
link, the iterator is dereferenced after the rehash. -/
theorem C61_link_rehash_faults (grow : Nat → Nat) (cb : UMap → List MapOp) (m : UMap) (addr n k : Nat)
    (r : List MapOp) (hid : m.entries.find addr = some n) (hfull : m.buckets ≤ m.entries.length)
    (hcb : cb m = .insert k :: r) (hk : m.entries.find k = none) :
    onLinkResponse grow cb m addr = .error .invalidIterator := by
  have hf : m.find addr = some { key := addr, node := n, epoch := m.epoch } := by simp [UMap.find, hid]
  have hv := ops_rehashed (grow := grow) (r := r) (it := { key := addr, node := n, epoch := m.epoch }) hk hfull rfl
  rw [← hcb] at hv
  simp only [onLinkResponse, hf, hv, Bool.false_eq_true, if_false]

/-- One timer in a table of one bucket that restarts itself under another identity, and the same
in a table of two buckets. -/
example : onTimerTrigger (· * 2) (fun _ => [.insert 6]) { entries := [(5, 0)], buckets := 1, epoch := 0, node := 1 } 5
      = .error .invalidIterator ∧
    onTimerTrigger (· * 2) (fun _ => [.insert 6]) { entries := [(5, 0)], buckets := 2, epoch := 0, node := 1 } 5
      = .ok { entries := [(6, 1)], buckets := 2, epoch := 0, node := 2 } := ⟨rfl, rfl⟩

/-- A link callback that asks for two further links. -/
example : onLinkResponse (· * 2) (fun _ => [.insert 6, .insert 7])
      { entries := [(5, 0)], buckets := 3, epoch := 0, node := 1 } 5
      = .ok ({ entries := [(7, 2), (6, 1), (5, 0)], buckets := 3, epoch := 0, node := 3 }, some 0) := rfl

end Verif.Reentry
