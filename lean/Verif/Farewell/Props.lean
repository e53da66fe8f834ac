import Verif.Farewell.Run
/-!
# Foreign subscribers of a supervisor that shuts down (C79)

The supervisor (`src`: the localities of its foreign subscribers) is arbitrary, and so is what everybody does and when: foreign actors
subscribe and leave, again and again, before, during and after the shutdown; messages from different localities arrive in any order.
-/

namespace Verif.Farewell
open Verif

/-- **C79**. Whatever foreign actors do while the supervisor shuts down, the subscription that is to be removed is found (`foreign_points.find`
is dereferenced without a check, `foreigners_support.cpp:85-86`; assertions of `subscription.cpp:81, 99`), and the plugin is never called
after its deactivation, when its actor is null. -/
theorem C79_no_fault (src : Nat → Nat) (ops : List Op) : run src State.init ops ≠ .error .fault := by
  rcases run_ok ops (init_inv src) (init_cnt src) with e | ⟨s', e, _⟩ <;> rw [e] <;> simp

/-- **C79**. Every request for a subscription is confirmed, or was taken from the queue when nobody listened any more, or is on its way; the
same for the messages of those who leave; never is one confirmed or removed twice. The table of the supervisor has exactly the
subscriptions that have been confirmed and not been removed. -/
theorem C79_books (src : Nat → Nat) (ops : List Op) (s : State) (h : run src State.init ops = .ok s) (x : Nat) :
    s.log.count (.asked x) = s.log.count (.confirmed x) + s.log.count (.unheard x) + wanting src s x ∧
    s.log.count (.left x) = s.log.count (.removed x) + s.log.count (.forgotten x) + leaving src s x ∧
    s.log.count (.confirmed x) = s.log.count (.removed x) + s.table.count x ∧ s.table.count x ≤ 1 ∧ (s.table.count x = 1 ↔ x ∈ s.fp) := by
  obtain ⟨i, c⟩ := reach h
  have h1 : s.fp.count x ≤ 1 := List.nodup_iff_count.mp i.nd x
  refine ⟨c.ca x, c.cl x, c.ct x, by rw [i.tab]; exact h1, ?_⟩
  rw [i.tab]
  constructor
  · intro e; exact List.count_pos_iff.mp (by omega)
  · intro e; have := List.count_pos_iff.mpr e; omega

/-- **C79**. Until the plugins are deactivated, or the last foreign subscriber leaves during the shutdown, nothing is missed: every request
and every leave that is taken from the queue is handled, and so is every call for a child, although the supervisor shuts down. -/
theorem C79_while_waiting (src : Nat → Nat) (ops : List Op) (s : State) (h : run src State.init ops = .ok s) (hd : .deactivated ∉ s.log)
    (he : .emptied ∉ s.log) :
    (∀ x, .unheard x ∉ s.log ∧ .forgotten x ∉ s.log) ∧ (∀ k, .lost k ∉ s.log) ∧ s.own = [.call, .unsub, .ext] ∧ s.active = true := by
  obtain ⟨i, c⟩ := reach h
  have hu : s.uns = [] := Classical.byContradiction fun e => (i.sh e).2.elim he hd
  have ho : s.own = full ∧ s.active = true := by
    cases i.ph with
    | on a _ b _ => exact ⟨a, b⟩
    | going _ b _ _ _ _ _ _ => exact absurd hu (ne_of_all b)
    | two _ b _ _ _ _ => exact absurd hu (ne_of_all b)
    | one _ b _ _ _ _ => exact absurd hu (ne_of_all b)
    | off _ b _ _ _ => exact absurd hu (ne_of_all b)
  have hx : H.ext ∈ s.own := by rw [ho.1]; simp [full]
  exact ⟨fun x => ⟨fun e => c.un x (Or.inl e) hx, fun e => c.un x (Or.inr e) hx⟩, fun k e => he (c.lo k e), ho.1, ho.2⟩

/-- **C79**. Before the shutdown nothing is missed. -/
theorem C79_before_shutdown (src : Nat → Nat) (ops : List Op) (s : State) (h : run src State.init ops = .ok s) (hs : s.st = .operational) :
    (∀ x, .unheard x ∉ s.log ∧ .forgotten x ∉ s.log) ∧ (∀ k, .lost k ∉ s.log) ∧ s.own = [.call, .unsub, .ext] ∧ s.active = true := by
  obtain ⟨i, _⟩ := reach h
  exact C79_while_waiting src ops s h (fun e => (i.dk e).2.1 hs) (fun e => (i.em e).1 hs)

/-- **C79**. When all messages of a subscriber have been taken from the queue and the supervisor has not ignored any of them, the table has
the subscription exactly when the subscriber has it. -/
theorem C79_agreed (src : Nat → Nat) (ops : List Op) (s : State) (h : run src State.init ops = .ok s) (x : Nat)
    (hw : wanting src s x = 0) (hl : leaving src s x = 0) (h1 : .unheard x ∉ s.log) (h2 : .forgotten x ∉ s.log) :
    (x ∈ s.table ↔ s.sub x = true) ∧ (.asked x ∈ s.log → .confirmed x ∈ s.log) := by
  obtain ⟨i, c⟩ := reach h
  have a1 := c.ca x; have a2 := c.cl x; have a3 := c.ct x; have a4 := c.cu x
  rw [List.count_eq_zero.mpr h1, hw] at a1
  rw [List.count_eq_zero.mpr h2, hl] at a2
  constructor
  · rw [← List.count_pos_iff]
    by_cases e : s.sub x = true
    · simp only [e, if_true] at a4; constructor <;> intro _ <;> first | rfl | omega | exact e
    · simp only [e] at a4
      simp at a4
      constructor
      · intro _; omega
      · intro z; exact absurd z (by simpa using e)
  · intro e
    have := List.count_pos_iff.mpr e
    exact List.count_pos_iff.mp (by omega)

/-- **C79**. The shutdown does not wait for foreign subscribers: when the deactivation of the plugin has begun and the messages that are in the
queue have been processed, the plugin is deactivated, whoever is still subscribed. -/
theorem C79_not_awaited (src : Nat → Nat) (ops : List Op) (s : State) (h : run src State.init ops = .ok s)
    (hd : .deactivated ∈ s.log ∨ .emptied ∈ s.log) :
    ∃ s', run src s (List.replicate s.queue.length .take) = .ok s' ∧ s'.active = false ∧ s'.deact = false ∧ s'.own = [] := by
  obtain ⟨i, c⟩ := reach h
  have hu : s.uns ≠ [] := by
    rcases hd with e | e
    · exact (i.dk e).2.2
    · exact (i.em e).2
  have key : ∀ n (s : State), Inv src s → Cnt src s → s.uns ≠ [] → s.queue.length = n →
      ∃ s', run src s (List.replicate n .take) = .ok s' ∧ s'.active = false ∧ s'.deact = false ∧ s'.own = [] := by
    intro n
    induction n with
    | zero =>
      intro s i c hu hn
      have hq := List.length_eq_zero_iff.mp hn
      refine ⟨s, rfl, ?_⟩
      cases i.ph with
      | on _ a _ _ => exact absurd a hu
      | going _ _ _ pre post d _ _ => rw [hq] at d; simp at d
      | two _ _ _ post d _ => rw [hq] at d; simp at d
      | one _ _ _ post d _ => rw [hq] at d; simp at d
      | off a _ b d _ => exact ⟨b, d, a⟩
    | succ n ih =>
      intro s i c hu hn
      obtain ⟨s1, e1, i1, c1, _, _, hq, _⟩ := take_ok i c
      obtain ⟨q1, q2⟩ := hq hu
      obtain ⟨s2, e2, r⟩ := ih s1 i1 c1 (by rw [q1]; exact hu) (by rw [q2]; simp [hn])
      exact ⟨s2, by simp [List.replicate_succ, run, step, e1, e2], r⟩
  exact key _ s i c hu rfl

/-- **C79**. When the plugin has been deactivated, and so when the supervisor has shut down, its table does not change any more: nobody gets a
subscription to its addresses, and nobody loses one. -/
theorem C79_for_ever (src : Nat → Nat) (ops ops' : List Op) (s s' : State) (h : run src State.init ops = .ok s)
    (h' : run src s ops' = .ok s') (hs : s.st = .shutDown ∨ s.active = false) :
    s'.table = s.table ∧ ∀ x, s'.log.count (.confirmed x) = s'.log.count (.removed x) + s.table.count x := by
  obtain ⟨i, c⟩ := reach h
  have ho : s.own = [] := by
    rcases hs with e | e
    · exact i.ds e
    · cases i.ph with
      | on _ _ a _ => rw [e] at a; cases a
      | going _ _ a _ _ _ _ _ => rw [e] at a; cases a
      | two _ _ a _ _ _ => rw [e] at a; cases a
      | one _ _ a _ _ _ => rw [e] at a; cases a
      | off a _ _ _ _ => exact a
  rcases run_ok ops' i c with e | ⟨s2, e, i2, c2, o⟩
  · rw [h'] at e; cases e
  · rw [h'] at e; cases e
    have ht := (o ho).2
    exact ⟨ht, fun x => by rw [c2.ct x, ht]⟩

/-- **C79** (part). Calls for handlers of children are not lost as long as the child is there, unless the last foreign subscriber leaves during
the shutdown. Missing, as it does not hold: the same without this condition, see `C79_early_counterexample`. -/
theorem C79_children_called_partial (src : Nat → Nat) (ops : List Op) (s : State) (h : run src State.init ops = .ok s)
    (he : .emptied ∉ s.log) : ∀ k, .lost k ∉ s.log :=
  fun k e => he ((reach h).2.lo k e)

/-- **C79** (part). If the supervisor has not missed that somebody has left, its table has a subscription only for somebody who has it or
whose leave is still to be handled. Missing, as it does not hold: the same after the shutdown, see `C79_left_over_counterexample`. -/
theorem C79_nothing_left_partial (src : Nat → Nat) (ops : List Op) (s : State) (h : run src State.init ops = .ok s) (x : Nat)
    (hx : x ∈ s.table) (hf : .forgotten x ∉ s.log) : s.sub x = true ∨ 0 < leaving src s x := by
  obtain ⟨i, c⟩ := reach h
  have a1 := c.ca x; have a2 := c.cl x; have a3 := c.ct x; have a4 := c.cu x
  rw [List.count_eq_zero.mpr hf] at a2
  have := List.count_pos_iff.mpr hx
  by_cases e : s.sub x = true
  · exact Or.inl e
  · right
    simp [e] at a4
    omega

theorem passAll_log (u : Nat) (l : List Nat) : ∀ s : State, (passAll u l s).log = (l.map (Ev.passed u)).reverse ++ s.log := by
  induction l with
  | nil => intro s; rfl
  | cons x l ih => intro s; simp only [passAll]; rw [ih]; simp

theorem count_passed (u x : Nat) (l : List Nat) : ((l.map (Ev.passed u)).reverse).count (.passed u x) = l.count x := by
  induction l with
  | nil => rfl
  | cons y l ih =>
    rw [List.map_cons, List.reverse_cons, List.count_append, ih]
    by_cases e : y = x
    · subst e; simp
    · rw [List.count_cons_of_ne e, List.count_cons_of_ne (by simpa using e)]; simp

/-- **C79**. A message for the address that is taken from the queue, before, during or after the shutdown, is passed once to everybody whose
subscription has been confirmed since it was last removed, and to nobody else. -/
theorem C79_passed (src : Nat → Nat) (ops : List Op) (s s' : State) (h : run src State.init ops = .ok s) (u : Nat) (rest : List Msg)
    (hq : s.queue = .user u :: rest) (h' : step src s .take = .ok s') (x : Nat) :
    s'.log.count (.passed u x) =
      s.log.count (.passed u x) + (if s.log.count (.removed x) < s.log.count (.confirmed x) then 1 else 0) := by
  obtain ⟨_, _, b3, b4, _⟩ := C79_books src ops s h x
  simp only [step, take, hq] at h'
  obtain rfl := Except.ok.inj h'
  rw [passAll_log, List.count_append, count_passed]
  show s.table.count x + s.log.count (.passed u x) = _
  split <;> omega

theorem run_append {src : Nat → Nat} (ops ops' : List Op) : ∀ {s s' : State}, run src s ops = .ok s' →
    run src s (ops ++ ops') = run src s' ops' := by
  induction ops with
  | nil => intro s s' h; obtain rfl := Except.ok.inj h; rfl
  | cons op ops ih =>
    intro s s' h
    simp only [run, List.cons_append] at h ⊢
    split at h
    · cases h
    · next s1 e => exact ih h

/-- **C79**. A call for a child that is taken from the queue while the child is there leads to exactly one call of its handler, unless the last
foreign subscriber has left during the shutdown; for a child that is gone nothing is called. -/
theorem C79_called (src : Nat → Nat) (ops : List Op) (s s' : State) (h : run src State.init ops = .ok s) (k : Nat) (rest : List Msg)
    (hq : s.queue = .call k :: rest) (h' : step src s .take = .ok s') (he : .emptied ∉ s.log) :
    s'.log = if k ∈ s.kids then .called k :: s.log else s.log := by
  have hr : run src State.init (ops ++ [.take]) = .ok s' := by
    rw [run_append ops _ h]; simp only [run, h']
  have hlost := C79_children_called_partial src (ops ++ [.take]) s' hr
  simp only [step, take, hq, onCall] at h'
  by_cases h1 : H.call ∈ s.own
  · rw [if_pos h1] at h'
    split at h'
    · obtain rfl := Except.ok.inj h'
      split <;> rfl
    · cases h'
  · rw [if_neg h1] at h'
    obtain rfl := Except.ok.inj h'
    by_cases hk : k ∈ s.kids
    · rw [if_pos hk] at hlost
      exact absurd (List.mem_cons_self ..) (hlost (fun z => he (by simpa using z)) k)
    · rw [if_neg hk, if_neg hk]

theorem markAll_log' (l : List H) : ∀ s, (markAll l s).log = s.log := by
  induction l with
  | nil => intro s; rfl
  | cons h l ih => intro s; rw [markAll, ih]; simp only [mark]; split <;> rfl

theorem baseDeactivate_log' (s : State) : (baseDeactivate s).log = s.log := by
  simp only [baseDeactivate]; split
  · split
    · rfl
    · rw [markAll_log']
  · rfl

theorem deactivate_emptied (s : State) : (deactivate s).log.count .emptied = s.log.count .emptied := by
  simp only [deactivate]; split <;> simp [baseDeactivate_log']

/-- **C79**. What is called the leave of the last foreign subscriber above happens when a leave is taken from the queue during the shutdown and
every subscription that was confirmed is removed then. -/
theorem C79_emptied (src : Nat → Nat) (ops : List Op) (s s' : State) (op : Op) (h : run src State.init ops = .ok s)
    (h' : step src s op = .ok s') (he : s.log.count .emptied < s'.log.count .emptied) :
    s.st = .shuttingDown ∧ (∃ x rest, s.queue = .commit x :: rest) ∧ ∀ x, s'.log.count (.removed x) = s'.log.count (.confirmed x) := by
  have hr : run src State.init (ops ++ [op]) = .ok s' := by
    rw [run_append ops _ h]; simp only [run, h']
  have hb := C79_books src (ops ++ [op]) s' hr
  by_cases ht : op = .take
  · subst ht
    simp only [step, take] at h'
    cases hq : s.queue with
    | nil => simp [hq] at h'; subst h'; omega
    | cons m rest =>
      cases m with
      | commit x =>
        simp only [hq, onCommit] at h'
        split at h'
        · split at h'
          · split at h'
            · rename_i hc
              cases h'
              refine ⟨hc.2, ⟨x, rest, rfl⟩, fun y => ?_⟩
              have := hb y
              have ht : y ∉ (baseDeactivate { s with queue := rest, fp := s.fp.erase x, table := s.table.erase x, log := .emptied :: .removed x :: s.log }).fp := by
                have : ∀ τ, (baseDeactivate τ).fp = τ.fp := by
                  intro τ
                  have mk : ∀ l τ, (markAll l τ).fp = τ.fp := by
                    intro l; induction l with
                    | nil => intro s; rfl
                    | cons h l ih => intro s; rw [markAll, ih]; simp only [mark]; split <;> rfl
                  simp only [baseDeactivate]; split
                  · split
                    · rfl
                    · rw [mk]
                  · rfl
                rw [this]; simp only [hc.1]; simp
              have h5 := this.2.2.2.2
              have h6 := this.2.2.2.1
              have h7 := this.2.2.1
              have : ¬ _ := fun e => ht (h5.mp e)
              omega
            · cases h'; simp at he
          · cases h'
        · cases h'; simp at he
      | ext x => simp only [hq, onExt] at h'; grind
      | call k => simp only [hq, onCall] at h'; grind
      | off k => simp only [hq, onOff] at h'; grind
      | user u =>
        simp only [hq] at h'; cases h'; rw [passAll_log, List.count_append] at he
        have : List.count Ev.emptied ((List.map (Ev.passed u) s.table).reverse) = 0 := by
          rw [List.count_eq_zero]; simp
        simp only at he; omega
  · exfalso
    cases op <;> simp only [step] at h' <;> grind [deactivate_emptied]

end Verif.Farewell
