import Verif.LoopTimers.Model
/-! Invariant of the timers of the event loop backends -/

namespace Verif.LoopTimers

/-- how often the callback of `id` was invoked -/
def calls (id : Nat) (log : List Ev) : Nat := log.countP (fun e => e = .called id true ∨ e = .called id false)

@[simp] theorem mem_without {x id : Nat} {l : List Nat} : x ∈ without id l ↔ x ∈ l ∧ x ≠ id := by simp [without]

theorem without_nodup {id : Nat} {l : List Nat} (h : l.Nodup) : (without id l).Nodup := h.filter _

theorem without_length {id : Nat} {l : List Nat} (h : l.Nodup) (hm : id ∈ l) : (without id l).length + 1 = l.length := by
  induction l with
  | nil => simp at hm
  | cons a l ih =>
    have hn := List.nodup_cons.1 h
    by_cases ha : a = id
    · subst ha
      have : without a (a :: l) = l := by
        simp only [without, List.filter_cons, ne_eq, not_true_eq_false, decide_false]
        apply List.filter_eq_self.2
        intro b hb; simp; rintro rfl; exact hn.1 hb
      rw [this]; simp
    · have hm' : id ∈ l := by
        rcases List.mem_cons.1 hm with h' | h'
        · exact absurd h'.symm ha
        · exact h'
      have : without id (a :: l) = a :: without id l := by simp [without, List.filter_cons, ha]
      rw [this]; have := ih hn.2 hm'; simp; omega

theorem without_not_mem {id : Nat} {l : List Nat} (hm : id ∉ l) : without id l = l := by
  apply List.filter_eq_self.2
  intro b hb; simp; rintro rfl; exact hm hb

/-- expected number of references -/
def expRefs (k : Kind) (s : State) : Nat :=
  match k with
  | .asio => s.armed.length + s.posted.length + s.aborted.length
  | .ev => s.table.length
  | .fltk => 2 * s.table.length
  | .wx => s.table.length

structure Inv (k : Kind) (s : State) : Prop where
  same : ∀ id, id ∈ s.table ↔ id ∈ s.map
  lt : ∀ id, id ∈ s.table → id < s.next
  nd : s.table.Nodup
  armedNd : s.armed.Nodup
  armedSub : ∀ id, id ∈ s.armed → id ∈ s.table ∧ id ∉ s.stack
  postedLt : ∀ id, id ∈ s.posted → id < s.next ∧ id ∉ s.armed
  postedNd : s.posted.Nodup
  stackSub : ∀ id, id ∈ s.stack → id ∈ s.table
  wait : ∀ id, id ∈ s.table → id ∉ s.stack → id ∈ s.armed ∨ id ∈ s.posted
  notAsio : k ≠ .asio → s.posted = [] ∧ s.aborted = []
  refs : s.refs = expRefs k s
  started : ∀ id, Ev.started id ∈ s.log ↔ id < s.next
  pend : ∀ id, id ∈ s.table → id ∉ s.stack → calls id s.log = 0
  done : ∀ id, id < s.next → (id ∉ s.table ∨ id ∈ s.stack) → calls id s.log = 1
  future : ∀ id, s.next ≤ id → calls id s.log = 0
  req : ∀ id, Ev.called id true ∈ s.log ↔ Ev.cancelReq id ∈ s.log
  exp : ∀ id, Ev.called id false ∈ s.log → Ev.cancelReq id ∉ s.log

theorem inv_init (k : Kind) : Inv k .init := by
  constructor <;> simp [State.init, calls, expRefs]
  cases k <;> rfl

theorem calls_cons_started (id j : Nat) (l : List Ev) : calls id (.started j :: l) = calls id l := by
  simp [calls, List.countP_cons]

theorem calls_cons_req (id j : Nat) (l : List Ev) : calls id (.cancelReq j :: l) = calls id l := by
  simp [calls, List.countP_cons]

theorem calls_cons_called (id j : Nat) (c : Bool) (l : List Ev) :
    calls id (.called j c :: l) = calls id l + if j = id then 1 else 0 := by
  cases c <;> simp [calls, List.countP_cons]

theorem called_mem {id : Nat} {c : Bool} {l : List Ev} (h : calls id l = 0) : Ev.called id c ∉ l := by
  intro hm
  have : 0 < calls id l := by
    rw [calls, List.countP_pos_iff]
    exact ⟨_, hm, by cases c <;> simp⟩
  omega

theorem inv_start {k : Kind} {s : State} (h : Inv k s) : Inv k (startTimer k s) := by
  have hnt : s.next ∉ s.table := fun hm => absurd (h.lt _ hm) (Nat.lt_irrefl _)
  have hns : s.next ∉ s.stack := fun hm => hnt (h.stackSub _ hm)
  have hna : s.next ∉ s.armed := fun hm => hnt (h.armedSub _ hm).1
  have hnp : s.next ∉ s.posted := fun hm => absurd (h.postedLt _ hm).1 (Nat.lt_irrefl _)
  have hf := h.future s.next (Nat.le_refl _)
  constructor <;> simp only [startTimer, calls_cons_started, List.mem_cons]
  · intro id; simp [h.same]
  · rintro id (rfl | hm)
    · exact Nat.lt_succ_self _
    · exact Nat.lt_succ_of_lt (h.lt _ hm)
  · exact List.nodup_cons.2 ⟨hnt, h.nd⟩
  · exact List.nodup_cons.2 ⟨hna, h.armedNd⟩
  · rintro id (rfl | hm)
    · exact ⟨.inl rfl, hns⟩
    · exact ⟨.inr (h.armedSub _ hm).1, (h.armedSub _ hm).2⟩
  · intro id hm
    refine ⟨Nat.lt_succ_of_lt (h.postedLt _ hm).1, ?_⟩
    rintro (rfl | hm')
    · exact hnp hm
    · exact (h.postedLt _ hm).2 hm'
  · exact h.postedNd
  · intro id hm; exact .inr (h.stackSub _ hm)
  · rintro id (rfl | hm) hn
    · exact .inl (.inl rfl)
    · rcases h.wait _ hm hn with h' | h'
      · exact .inl (.inr h')
      · exact .inr h'
  · exact h.notAsio
  · rw [h.refs]; cases k <;> simp [expRefs, perTimer] <;> omega
  · intro id
    rw [h.started]; simp; omega
  · rintro id (rfl | hm) hn
    · exact hf
    · exact h.pend _ hm hn
  · intro id hlt ho
    by_cases hid : id = s.next
    · subst hid
      rcases ho with ho | ho
      · simp at ho
      · exact absurd ho hns
    · refine h.done id (by omega) ?_
      rcases ho with ho | ho
      · exact .inl (fun hm => ho (.inr hm))
      · exact .inr ho
  · intro id hle; exact h.future id (by omega)
  · intro id; simp [h.req]
  · intro id hm; simp at hm ⊢; exact h.exp _ hm

/-- pushing a callback: `s` is the state just before the cancellation request or the expiry -/
theorem inv_push {k : Kind} {s : State} {id : Nat} {c : Bool} (h : Inv k s) (hm : id ∈ s.table) (hns : id ∉ s.stack)
    {armed aborted : List Nat} (ha : armed = without id s.armed)
    (hab : k = .asio → armed.length + aborted.length = s.armed.length + s.aborted.length)
    (hnab : k ≠ .asio → aborted = s.aborted) :
    Inv k { s with armed := armed, aborted := aborted, stack := id :: s.stack,
                   log := .called id c :: (if c then .cancelReq id :: s.log else s.log) } := by
  have hp := h.pend _ hm hns
  subst ha
  have hcalls : ∀ j, calls j (.called id c :: (if c then .cancelReq id :: s.log else s.log)) =
      calls j s.log + if id = j then 1 else 0 := by
    intro j; rw [calls_cons_called]; cases c <;> simp [calls_cons_req]
  constructor <;> simp only [hcalls, List.mem_cons, mem_without]
  · exact h.same
  · exact h.lt
  · exact h.nd
  · exact without_nodup h.armedNd
  · rintro j ⟨hj, hne⟩
    exact ⟨(h.armedSub _ hj).1, fun hc => hc.elim hne (h.armedSub _ hj).2⟩
  · intro j hj; exact ⟨(h.postedLt _ hj).1, fun hc => (h.postedLt _ hj).2 hc.1⟩
  · exact h.postedNd
  · rintro j (rfl | hj)
    · exact hm
    · exact h.stackSub _ hj
  · intro j hj hn
    have hn1 : j ≠ id := fun e => hn (.inl e)
    have hn2 : j ∉ s.stack := fun e => hn (.inr e)
    rcases h.wait _ hj hn2 with h' | h'
    · exact .inl ⟨h', hn1⟩
    · exact .inr h'
  · intro hk; exact ⟨(h.notAsio hk).1, by rw [hnab hk]; exact (h.notAsio hk).2⟩
  · rw [h.refs]
    cases k <;> simp [expRefs] at *
    omega
  · intro j; cases c <;> simp [h.started]
  · intro j hj hn
    have hn1 : id ≠ j := fun e => hn (.inl e.symm)
    have hn2 : j ∉ s.stack := fun e => hn (.inr e)
    simp [hn1, h.pend _ hj hn2]
  · intro j hlt ho
    by_cases hj : id = j
    · subst hj; simp [hp]
    · simp only [hj, if_false, Nat.add_zero]
      refine h.done j hlt ?_
      rcases ho with ho | ho | ho
      · exact .inl ho
      · exact absurd ho.symm hj
      · exact .inr ho
  · intro j hle
    have : id < s.next := h.lt _ hm
    have hj : id ≠ j := by omega
    simp [hj, h.future j hle]
  · intro j
    have := h.req j
    cases c <;> simp [this]
  · intro j hj
    cases c
    · simp at hj ⊢
      rcases hj with rfl | hj
      · intro hc; exact called_mem hp ((h.req _).2 hc)
      · exact h.exp _ hj
    · simp at hj ⊢
      refine ⟨?_, h.exp _ hj⟩
      rintro rfl; exact called_mem hp hj

/-- the end of a callback together with the removal from the table -/
theorem inv_pop {k : Kind} {s : State} {id : Nat} {st : List Nat} (h : Inv k s) (hst : s.stack = id :: st) (hn : id ∉ st) :
    Inv k { s with table := without id s.table, map := without id s.map, stack := st,
                   refs := if k = .asio then s.refs else s.refs - perTimer k } := by
  have hmt : id ∈ s.table := h.stackSub _ (by simp [hst])
  have hna : id ∉ s.armed := fun hm => (h.armedSub _ hm).2 (by simp [hst])
  constructor <;> simp only [mem_without]
  · intro j; simp [h.same]
  · intro j hj; exact h.lt _ hj.1
  · exact without_nodup h.nd
  · exact h.armedNd
  · intro j hj
    have := h.armedSub _ hj
    rw [hst] at this
    simp at this
    exact ⟨⟨this.1, this.2.1⟩, this.2.2⟩
  · exact h.postedLt
  · exact h.postedNd
  · intro j hj; exact ⟨h.stackSub _ (by simp [hst, hj]), by rintro rfl; exact hn hj⟩
  · intro j hj hns; exact h.wait _ hj.1 (by simp [hst, hj.2, hns])
  · exact h.notAsio
  · rw [h.refs]
    have := without_length h.nd hmt
    cases k <;> simp [expRefs, perTimer] <;> omega
  · exact h.started
  · intro j hj hns; exact h.pend _ hj.1 (by simp [hst, hj.2, hns])
  · intro j hlt ho
    refine h.done j hlt ?_
    rcases ho with ho | ho
    · by_cases hj : j = id
      · exact .inr (by simp [hst, hj])
      · exact .inl (fun hm => ho ⟨hm, hj⟩)
    · exact .inr (by simp [hst, ho])
  · exact h.future
  · exact h.req
  · exact h.exp

/-- state of `do_cancel_timer` when the callback is invoked -/
theorem inv_disarm {k : Kind} {s : State} {id : Nat} (h : Inv k s) (hct : id ∈ s.table) (hc2 : id ∉ s.stack) :
    Inv k { disarm k id s with stack := id :: (disarm k id s).stack, log := .called id true :: .cancelReq id :: s.log } := by
  by_cases hd : k = .asio ∧ id ∈ s.armed
  · have := inv_push (c := true) h hct hc2 (armed := without id s.armed) (aborted := id :: s.aborted) rfl
      (by intro _; have := without_length h.armedNd hd.2; simp; omega) (fun hk => absurd hd.1 hk)
    simpa [disarm, hd] using this
  · have := inv_push (c := true) h hct hc2 (armed := without id s.armed) (aborted := s.aborted) rfl
      (by intro hk; rw [without_not_mem (fun hm => hd ⟨hk, hm⟩)]) (fun _ => rfl)
    simpa [disarm, hd] using this

theorem drop_inv {k : Kind} {s s' : State} {id : Nat} (hns : id ∉ s.stack)
    (hi : Inv k { s with map := id :: s.map, stack := id :: s.stack }) (hnm : id ∉ s.map)
    (he : dropTimer k id s = .ok s') : Inv k s' ∧ s'.stack = s.stack := by
  have := inv_pop (id := id) (st := s.stack) hi rfl hns
  unfold dropTimer at he
  split at he
  · cases he
  · cases he
    refine ⟨?_, rfl⟩
    have hw : without id (id :: s.map) = s.map := by
      rw [← without_not_mem hnm]; simp [without]
    simp only [hw] at this
    exact this

theorem drop_no_fault {k : Kind} {s : State} {id : Nat}
    (hi : Inv k { s with map := id :: s.map, stack := id :: s.stack }) : dropTimer k id s ≠ .error .fault := by
  unfold dropTimer
  split
  · rename_i h
    exact absurd (List.mem_cons_self ..) (hi.armedSub id h.1).2
  · simp

theorem exec_inv (k : Kind) (env : Env) : ∀ (n : Nat),
    (∀ l s s', Inv k s → exec n k env (.acts l) s = .ok s' → Inv k s' ∧ s'.stack = s.stack) ∧
    (∀ id c s s', id ∈ s.map → Inv k { s with stack := id :: s.stack, log := .called id c :: s.log } → id ∉ s.stack →
        exec n k env (.trigger id c) s = .ok s' →
        s'.stack = s.stack ∧ Inv k { s' with map := id :: s'.map, stack := id :: s'.stack } ∧ id ∉ s'.map) ∧
    (∀ id s s', Inv k s → id ∈ s.map → id ∉ s.stack → exec n k env (.cancel id) s = .ok s' →
        Inv k s' ∧ s'.stack = s.stack) := by
  intro n
  induction n with
  | zero => simp [exec]
  | succ n ih =>
  refine ⟨?_, ?_, ?_⟩
  · intro l s s' h he
    cases l with
    | nil => simp only [exec, Except.ok.injEq] at he; subst he; exact ⟨h, rfl⟩
    | cons a l =>
      cases a with
      | start =>
        simp only [exec] at he
        exact ih.1 l (startTimer k s) s' (inv_start h) he
      | cancel id =>
        simp only [exec] at he
        split at he
        · cases he
        · rename_i hc
          have hc1 : id ∈ s.map := by
            by_cases hx : id ∈ s.map
            · exact hx
            · exact absurd (Or.inl hx) hc
          have hc2 : id ∉ s.stack := fun hx => hc (Or.inr hx)
          split at he
          · cases he
          · rename_i s1 hs1
            have hi' := ih.2.2 id s s1 h hc1 hc2 hs1
            have := ih.1 _ _ _ hi'.1 he
            exact ⟨this.1, this.2.trans hi'.2⟩
  · intro id c s s' hm h hns he
    simp only [exec, hm, not_true_eq_false, if_false] at he
    split at he
    · cases he
    · rename_i s1 hs1
      cases he
      obtain ⟨hi, hst⟩ := ih.1 _ _ _ h hs1
      refine ⟨rfl, ?_, by simp⟩
      simp only at hst ⊢
      have hmm : id ∈ s1.map := (hi.same id).1 (hi.stackSub id (by simp [hst]))
      have := hi
      constructor
      · intro j
        have := hi.same j
        simp only [List.mem_cons, mem_without]
        rw [this]
        by_cases hj : j = id
        · subst hj; simp [hmm]
        · simp [hj]
      · exact hi.lt
      · exact hi.nd
      · exact hi.armedNd
      · rw [← hst]; exact hi.armedSub
      · exact hi.postedLt
      · exact hi.postedNd
      · rw [← hst]; exact hi.stackSub
      · rw [← hst]; exact hi.wait
      · exact hi.notAsio
      · exact hi.refs
      · exact hi.started
      · rw [← hst]; exact hi.pend
      · rw [← hst]; exact hi.done
      · exact hi.future
      · exact hi.req
      · exact hi.exp
  · intro id s s' h hm hns he
    have ht := (h.same id).2 hm
    have hdm : id ∈ (disarm k id s).map := by unfold disarm; split <;> exact hm
    have hds : (disarm k id s).stack = s.stack := by unfold disarm; split <;> rfl
    simp only [exec, ht, hm, not_true_eq_false, if_false] at he
    split at he
    · cases he
    · rename_i s1 hs1
      obtain ⟨hst, hi, hnm⟩ := ih.2.1 id true { disarm k id s with log := .cancelReq id :: s.log } s1 hdm
        (inv_disarm h ht hns) (by simpa [hds] using hns) hs1
      have hst' : s1.stack = s.stack := by rw [hst]; exact hds
      have := drop_inv (by rw [hst']; exact hns) hi hnm he
      exact ⟨this.1, this.2.trans hst'⟩

/-- no exception, no dangling timer or handler -/
theorem exec_no_fault (k : Kind) (env : Env) : ∀ (n : Nat),
    (∀ l s, Inv k s → exec n k env (.acts l) s ≠ .error .fault) ∧
    (∀ id c s, id ∈ s.map → Inv k { s with stack := id :: s.stack, log := .called id c :: s.log } → id ∉ s.stack →
        exec n k env (.trigger id c) s ≠ .error .fault) ∧
    (∀ id s, Inv k s → id ∈ s.map → id ∉ s.stack → exec n k env (.cancel id) s ≠ .error .fault) := by
  intro n
  induction n with
  | zero => simp [exec]
  | succ n ih =>
  refine ⟨?_, ?_, ?_⟩
  · intro l s h
    cases l with
    | nil => simp [exec]
    | cons a l =>
      cases a with
      | start => simp only [exec]; exact ih.1 _ _ (inv_start h)
      | cancel id =>
        simp only [exec]
        split
        · simp
        · rename_i hc
          have hc1 : id ∈ s.map := by
            by_cases hx : id ∈ s.map
            · exact hx
            · exact absurd (Or.inl hx) hc
          have hc2 : id ∉ s.stack := fun hx => hc (Or.inr hx)
          split
          · rename_i e he
            intro hcon; cases hcon
            exact ih.2.2 id s h hc1 hc2 he
          · rename_i s1 hs1
            refine ih.1 l s1 ?_
            exact ((exec_inv k env n).2.2 id s s1 h hc1 hc2 hs1).1
  · intro id c s hm h hns
    simp only [exec, hm, not_true_eq_false, if_false]
    split
    · rename_i e he
      intro hcon; cases hcon
      exact ih.1 _ _ h he
    · simp
  · intro id s h hm hns
    have ht := (h.same id).2 hm
    simp only [exec, ht, hm, not_true_eq_false, if_false]
    have hdm : id ∈ (disarm k id s).map := by unfold disarm; split <;> exact hm
    have hds : (disarm k id s).stack = s.stack := by unfold disarm; split <;> rfl
    split
    · rename_i e he
      intro hcon; cases hcon
      exact ih.2.1 id true { disarm k id s with log := .cancelReq id :: s.log } hdm (inv_disarm h ht hns) (by simpa [hds] using hns) he
    · rename_i s1 hs1
      obtain ⟨hst, hi, _⟩ := (exec_inv k env n).2.1 id true { disarm k id s with log := .cancelReq id :: s.log } s1 hdm
        (inv_disarm h ht hns) (by simpa [hds] using hns) hs1
      apply drop_no_fault
      exact hi

theorem fire_inv {k : Kind} {env : Env} {n : Nat} {s s' : State} {id : Nat} (hk : k ≠ .asio → id ∈ s.table)
    (hs : id ∉ s.stack) (ha : id ∉ s.armed)
    (h : Inv k { s with stack := id :: s.stack, log := .called id false :: s.log } ∨ (id ∉ s.table ∧ Inv k s))
    (he : exec n k env (.fire id) s = .ok s') : Inv k s' ∧ s'.stack = s.stack := by
  cases n with
  | zero => simp [exec] at he
  | succ n =>
  by_cases ht : id ∈ s.table
  · rcases h with h | h
    · have hm : id ∈ s.map := (h.same id).1 ht
      simp only [exec, ht, hm, not_true_eq_false, if_false] at he
      split at he
      · cases he
      · rename_i s1 hs1
        obtain ⟨hst, hi, hnm⟩ := (exec_inv k env n).2.1 id false s s1 hm h hs hs1
        have := drop_inv (by rw [hst]; exact hs) hi hnm he
        exact ⟨this.1, this.2.trans hst⟩
    · exact absurd ht h.1
  · by_cases hk' : k = .asio
    · rcases h with h | h
      · exact absurd (h.stackSub id (by simp)) ht
      · simp only [exec, ht, hk', not_false_eq_true, if_true, Except.ok.injEq] at he
        subst he; subst hk'; exact ⟨h.2, rfl⟩
    · exact absurd (hk hk') ht

theorem fire_no_fault {k : Kind} {env : Env} {n : Nat} {s : State} {id : Nat} (hk : k ≠ .asio → id ∈ s.table)
    (hs : id ∉ s.stack)
    (h : Inv k { s with stack := id :: s.stack, log := .called id false :: s.log } ∨ (id ∉ s.table ∧ Inv k s)) :
    exec n k env (.fire id) s ≠ .error .fault := by
  cases n with
  | zero => simp [exec]
  | succ n =>
  by_cases ht : id ∈ s.table
  · rcases h with h | h
    · have hm : id ∈ s.map := (h.same id).1 ht
      simp only [exec, ht, hm, not_true_eq_false, if_false]
      split
      · rename_i e he
        intro hcon; cases hcon
        exact (exec_no_fault k env n).2.1 id false s hm h hs he
      · rename_i s1 hs1
        obtain ⟨hst, hi, hnm⟩ := (exec_inv k env n).2.1 id false s s1 hm h hs hs1
        exact drop_no_fault hi
    · exact absurd ht h.1
  · have hk' : k = .asio := by
      by_cases hk' : k = .asio
      · exact hk'
      · exact absurd (hk hk') ht
    simp [exec, ht, hk']

theorem fire_gone {k : Kind} {env : Env} {n : Nat} {s s' : State} {id : Nat}
    (he : exec n k env (.fire id) s = .ok s') : id ∉ s'.table := by
  cases n with
  | zero => simp [exec] at he
  | succ n =>
  simp only [exec] at he
  split at he
  · rename_i ht
    split at he
    · cases he; exact ht
    · cases he
  · split at he
    · cases he
    · split at he
      · cases he
      · unfold dropTimer at he
        split at he
        · cases he
        · cases he; simp

/-- nothing is taken from the strand's queue while user code runs -/
theorem exec_posted (k : Kind) (env : Env) : ∀ (n : Nat) (c : Cmd) (s s' : State), exec n k env c s = .ok s' →
    s'.posted = s.posted := by
  intro n
  induction n with
  | zero => simp [exec]
  | succ n ih =>
    have hd : ∀ id s s', dropTimer k id s = .ok s' → s'.posted = s.posted := by
      intro id s s' he; unfold dropTimer at he; split at he <;> cases he; rfl
    intro c s s' he
    cases c with
    | acts l =>
      cases l with
      | nil => cases he; rfl
      | cons a l =>
        cases a with
        | start => simp only [exec] at he; rw [ih _ _ _ he]; rfl
        | cancel id =>
          simp only [exec] at he
          split at he
          · cases he
          · split at he
            · cases he
            · rename_i s1 h1; rw [ih _ _ _ he, ih _ _ _ h1]
    | cancel id =>
      simp only [exec] at he
      split at he
      · split at he <;> cases he; rfl
      · split at he
        · cases he
        · split at he
          · cases he
          · rename_i s1 h1
            rw [hd _ _ _ he, ih _ _ _ h1]
            simp only [disarm]; split <;> rfl
    | fire id =>
      simp only [exec] at he
      split at he
      · split at he <;> cases he; rfl
      · split at he
        · cases he
        · split at he
          · cases he
          · rename_i s1 h1
            rw [hd _ _ _ he, ih _ _ _ h1]
    | trigger id c =>
      simp only [exec] at he
      split at he
      · cases he; rfl
      · split at he
        · cases he
        · rename_i s1 h1
          cases he
          simp only; rw [ih _ _ _ h1]

theorem fire_posted {k : Kind} {env : Env} {n : Nat} {s s' : State} {id : Nat}
    (he : exec n k env (.fire id) s = .ok s') : ∀ j, j ∈ s.posted → j ∈ s'.posted := by
  intro j hj; rw [exec_posted k env n _ _ _ he]; exact hj

/-- events are only added -/
theorem exec_log (k : Kind) (env : Env) (e : Ev) : ∀ (n : Nat) (c : Cmd) (s s' : State), exec n k env c s = .ok s' →
    e ∈ s.log → e ∈ s'.log := by
  intro n
  induction n with
  | zero => simp [exec]
  | succ n ih =>
    have hd : ∀ id s s', dropTimer k id s = .ok s' → s'.log = s.log := by
      intro id s s' he; unfold dropTimer at he; split at he <;> cases he; rfl
    intro c s s' he hm
    cases c with
    | acts l =>
      cases l with
      | nil => cases he; exact hm
      | cons a l =>
        cases a with
        | start => simp only [exec] at he; exact ih _ (startTimer k s) _ he (List.mem_cons_of_mem _ hm)
        | cancel id =>
          simp only [exec] at he
          split at he
          · cases he
          · split at he
            · cases he
            · rename_i s1 h1; exact ih _ _ _ he (ih _ _ _ h1 hm)
    | cancel id =>
      simp only [exec] at he
      split at he
      · split at he <;> cases he; exact hm
      · split at he
        · cases he
        · split at he
          · cases he
          · rename_i s1 h1
            rw [hd _ _ _ he]
            exact ih _ { disarm k id s with log := .cancelReq id :: s.log } _ h1 (List.mem_cons_of_mem _ hm)
    | fire id =>
      simp only [exec] at he
      split at he
      · split at he <;> cases he; exact hm
      · split at he
        · cases he
        · split at he
          · cases he
          · rename_i s1 h1
            rw [hd _ _ _ he]; exact ih _ _ _ h1 hm
    | trigger id c =>
      simp only [exec] at he
      split at he
      · cases he; exact hm
      · split at he
        · cases he
        · rename_i s1 h1
          cases he
          exact ih _ { s with stack := id :: s.stack, log := .called id c :: s.log } s1 h1 (List.mem_cons_of_mem _ hm)

theorem fire_called {k : Kind} {env : Env} {n : Nat} {s s' : State} {id : Nat} (ht : id ∈ s.table) (hm : id ∈ s.map)
    (he : exec n k env (.fire id) s = .ok s') : Ev.called id false ∈ s'.log := by
  cases n with
  | zero => simp [exec] at he
  | succ n =>
  simp only [exec, ht, hm, not_true_eq_false, if_false] at he
  split at he
  · cases he
  · rename_i s1 h1
    have hd : s'.log = s1.log := by unfold dropTimer at he; split at he <;> cases he; rfl
    rw [hd]
    cases n with
    | zero => simp [exec] at h1
    | succ n =>
      simp only [exec, hm, not_true_eq_false, if_false] at h1
      split at h1
      · cases h1
      · rename_i s2 h2
        cases h1
        exact exec_log k env _ n _ { s with stack := id :: s.stack, log := .called id false :: s.log } s2 h2 (List.mem_cons_self ..)

/-- pushing an expired timer -/
theorem inv_expired {k : Kind} {s : State} {id : Nat} (h : Inv k s) (ht : id ∈ s.table) (hns : id ∉ s.stack)
    (hk : k = .asio → id ∉ s.armed) :
    Inv k { s with armed := without id s.armed, stack := id :: s.stack, log := .called id false :: s.log } := by
  have := inv_push (c := false) h ht hns (armed := without id s.armed) (aborted := s.aborted) rfl
    (by intro hk'; rw [without_not_mem (hk hk')]) (fun _ => rfl)
  simpa using this

theorem step_inv {k : Kind} {env : Env} {fuel : Nat} {s s' : State} {op : Op} (h : Inv k s) (hst : s.stack = [])
    (he : step fuel k env s op = .ok s') : Inv k s' ∧ s'.stack = [] := by
  cases op with
  | user l =>
    have := (exec_inv k env fuel).1 l s s' h he
    exact ⟨this.1, this.2.trans hst⟩
  | expire id =>
    simp only [step] at he
    split at he
    · rename_i ha
      have ht := (h.armedSub id ha).1
      split at he
      · rename_i hk
        cases he
        refine ⟨?_, hst⟩
        have hnp : id ∉ s.posted := fun hp => (h.postedLt id hp).2 ha
        have hl := without_length h.armedNd ha
        refine ⟨h.same, h.lt, h.nd, without_nodup h.armedNd, ?_, ?_, List.nodup_cons.2 ⟨hnp, h.postedNd⟩, h.stackSub, ?_, ?_, ?_,
          h.started, h.pend, h.done, h.future, h.req, h.exp⟩
        · intro j hj; exact h.armedSub j (mem_without.1 hj).1
        · intro j hj
          rcases List.mem_cons.1 hj with hj | hj
          · exact ⟨hj ▸ h.lt id ht, by simp [hj]⟩
          · exact ⟨(h.postedLt j hj).1, fun hc => (h.postedLt j hj).2 (mem_without.1 hc).1⟩
        · intro j hj hs
          by_cases hji : j = id
          · exact .inr (by simp [hji])
          · rcases h.wait j hj hs with h' | h'
            · exact .inl (mem_without.2 ⟨h', hji⟩)
            · exact .inr (by simp [h'])
        · intro hk'; exact absurd hk hk'
        · rw [h.refs, hk]; simp [expRefs]; omega
      · rename_i hk
        have := fire_inv (k := k) (env := env) (n := fuel) (s := { s with armed := without id s.armed }) (s' := s') (id := id)
          (fun _ => ht) (by simp [hst]) (by simp) (.inl (inv_expired h ht (by simp [hst]) (fun hk' => absurd hk' hk))) he
        exact ⟨this.1, this.2.trans hst⟩
    · cases he; exact ⟨h, hst⟩
  | runPosted id =>
    simp only [step] at he
    split at he
    · rename_i hp
      have hk : k = .asio := by
        by_cases hk : k = .asio
        · exact hk
        · rw [(h.notAsio hk).1] at hp; simp at hp
      split at he
      · cases he
      · rename_i s1 hs1
        cases he
        have hpost := fire_posted hs1
        have hna := (h.postedLt id hp).2
        have h1 := fire_inv (k := k) (env := env) (n := fuel) (s := s) (s' := s1) (id := id) (fun hk' => absurd hk hk')
          (by simp [hst]) hna (by
            by_cases ht : id ∈ s.table
            · left
              have := inv_expired h ht (by simp [hst]) (fun _ => hna)
              rw [without_not_mem hna] at this
              exact this
            · exact .inr ⟨ht, h⟩) hs1
        have hg := fire_gone hs1
        obtain ⟨hi, hs⟩ := h1
        have hp1 : id ∈ s1.posted := hpost _ hp
        have hlen : (s1.posted.erase id).length + 1 = s1.posted.length := by
          rw [List.length_erase_of_mem hp1]
          have : 0 < s1.posted.length := List.length_pos_of_mem hp1
          omega
        refine ⟨⟨hi.same, hi.lt, hi.nd, hi.armedNd, hi.armedSub, ?_, hi.postedNd.erase _, hi.stackSub, ?_, ?_, ?_,
          hi.started, hi.pend, hi.done, hi.future, hi.req, hi.exp⟩, hs.trans hst⟩
        · intro j hj; exact hi.postedLt j (List.mem_of_mem_erase hj)
        · intro j hj hns
          rcases hi.wait j hj hns with h' | h'
          · exact .inl h'
          · exact .inr ((List.mem_erase_of_ne (show j ≠ id from fun e => hg (e ▸ hj))).2 h')
        · intro hk'; exact absurd hk hk'
        · rw [hi.refs, hk]; simp only [expRefs]; omega
    · cases he; exact ⟨h, hst⟩
  | runAborted id =>
    simp only [step] at he
    split at he
    · rename_i ha
      have hk : k = .asio := by
        by_cases hk : k = .asio
        · exact hk
        · rw [(h.notAsio hk).2] at ha; simp at ha
      cases he
      have hlen : (s.aborted.erase id).length + 1 = s.aborted.length := by
        rw [List.length_erase_of_mem ha]
        have : 0 < s.aborted.length := List.length_pos_of_mem ha
        omega
      refine ⟨⟨h.same, h.lt, h.nd, h.armedNd, h.armedSub, h.postedLt, h.postedNd, h.stackSub, h.wait, fun hk' => absurd hk hk', ?_,
          h.started, h.pend, h.done, h.future, h.req, h.exp⟩, hst⟩
      rw [h.refs, hk]; simp only [expRefs]; omega
    · cases he; exact ⟨h, hst⟩

theorem step_no_fault {k : Kind} {env : Env} {fuel : Nat} {s : State} {op : Op} (h : Inv k s) (hst : s.stack = []) :
    step fuel k env s op ≠ .error .fault := by
  cases op with
  | user l => exact (exec_no_fault k env fuel).1 l s h
  | expire id =>
    simp only [step]
    split
    · rename_i ha
      have ht := (h.armedSub id ha).1
      split
      · simp
      · rename_i hk
        exact fire_no_fault (s := { s with armed := without id s.armed }) (fun _ => ht) (by simp [hst])
          (.inl (inv_expired h ht (by simp [hst]) (fun hk' => absurd hk' hk)))
    · simp
  | runPosted id =>
    simp only [step]
    split
    · rename_i hp
      have hna := (h.postedLt id hp).2
      have := fire_no_fault (k := k) (env := env) (n := fuel) (s := s) (id := id) (fun hk => by
          rw [(h.notAsio hk).1] at hp; simp at hp) (by simp [hst]) (by
            by_cases ht : id ∈ s.table
            · left
              have := inv_expired h ht (by simp [hst]) (fun _ => hna)
              rw [without_not_mem hna] at this
              exact this
            · exact .inr ⟨ht, h⟩)
      split
      · rename_i e he
        intro hcon; cases hcon; exact this he
      · simp
    · simp
  | runAborted id => simp only [step]; split <;> simp

theorem run_inv {k : Kind} {env : Env} {fuel : Nat} (ops : List Op) : ∀ {s s' : State}, Inv k s → s.stack = [] →
    run fuel k env s ops = .ok s' → Inv k s' ∧ s'.stack = [] := by
  induction ops with
  | nil => intro s s' h hs he; cases he; exact ⟨h, hs⟩
  | cons op l ih =>
    intro s s' h hs he
    simp only [run] at he
    split at he
    · cases he
    · rename_i s1 h1
      have := step_inv h hs h1
      exact ih this.1 this.2 he

theorem run_no_fault {k : Kind} {env : Env} {fuel : Nat} (ops : List Op) : ∀ {s : State}, Inv k s → s.stack = [] →
    run fuel k env s ops ≠ .error .fault := by
  induction ops with
  | nil => intro s h hs he; cases he
  | cons op l ih =>
    intro s h hs
    simp only [run]
    split
    · rename_i e he
      intro hc; cases hc; exact step_no_fault h hs he
    · rename_i s1 h1
      have := step_inv h hs h1
      exact ih this.1 this.2

end Verif.LoopTimers
