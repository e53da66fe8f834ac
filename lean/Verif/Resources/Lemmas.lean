import Verif.Resources.Spec

/-! # Proof machinery for the resources plugin -/

namespace Verif.Resources

theorem balance_append (id : Nat) (a b : List Op) : balance id (a ++ b) = balance id a + balance id b := by
  induction a with
  | nil => simp [balance]
  | cons op a ih => cases op <;> simp only [List.cons_append, balance, ih] <;> omega

theorem acquisitions_append (a b : List Op) : acquisitions (a ++ b) = acquisitions a + acquisitions b := by
  induction a with
  | nil => simp [acquisitions]
  | cons op a ih => cases op <;> simp only [List.cons_append, acquisitions, ih] <;> omega

theorem run_append (s : State) (a b : List Op) :
    s.run (a ++ b) = match s.run a with | .error e => .error e | .ok s' => s'.run b := by
  induction a generalizing s with
  | nil => rfl
  | cons op a ih =>
    simp only [List.cons_append, State.run]
    split
    · rfl
    · exact ih _

theorem foldl_sum (l : List Nat) (acc : Nat) (h : acc + l.sum < u32) :
    l.foldl (fun acc v => (acc + v) % u32) acc = acc + l.sum := by
  induction l generalizing acc with
  | nil => simp
  | cons v l ih =>
    simp only [List.foldl_cons, List.sum_cons] at h ⊢
    rw [Nat.mod_eq_of_lt (by omega), ih _ (by omega)]
    omega

theorem hasAny_iff (l : List Nat) (h : l.sum < 2 ^ 31) : hasAny l = true ↔ 0 < l.sum := by
  unfold hasAny
  rw [foldl_sum l 0 (by simp [u32]; omega)]
  simp only [Nat.zero_add, toInt32, h, if_true, decide_eq_true_eq]
  omega

theorem sum_set (l : List Nat) (i v w : Nat) (h : l[i]? = some v) : (l.set i w).sum + v = l.sum + w := by
  induction l generalizing i with
  | nil => simp at h
  | cons x l ih =>
    cases i with
    | zero => simp only [List.getElem?_cons_zero, Option.some.injEq] at h; subst h; simp; omega
    | succ i => simp only [List.getElem?_cons_succ] at h; have := ih i h; simp; omega

theorem sum_grow (l : List Nat) (n : Nat) : (grow l n).sum = l.sum := by
  have : ∀ k, (List.replicate k 0).sum = 0 := by
    intro k; induction k with
    | zero => rfl
    | succ k ih => simp [List.replicate_succ, ih]
  simp [grow, this]

theorem sum_pos_iff (l : List Nat) : 0 < l.sum ↔ ∃ (i v : Nat), l[i]? = some v ∧ 0 < v := by
  induction l with
  | nil => simp
  | cons x l ih =>
    simp only [List.sum_cons]
    constructor
    · intro h
      by_cases hx : 0 < x
      · exact ⟨0, x, by simp, hx⟩
      · obtain ⟨i, v, h1, h2⟩ := ih.1 (by omega)
        exact ⟨i + 1, v, by simpa using h1, h2⟩
    · rintro ⟨i, v, h1, h2⟩
      cases i with
      | zero => simp only [List.getElem?_cons_zero, Option.some.injEq] at h1; omega
      | succ i => have := ih.2 ⟨i, v, by simpa using h1, h2⟩; omega

/-- the relation between the counters and the history -/
structure Inv (s : State) (hist : List Op) : Prop where
  has : ∀ id, (s.has id : Int) = balance id hist
  sum : s.counts.sum ≤ acquisitions hist

theorem legal_prefix {a b : List Op} (h : legal (a ++ b)) : legal a := by
  intro n id
  have := h (min n a.length) id
  rw [List.take_append_of_le_length (Nat.min_le_right _ _)] at this
  by_cases hn : n ≤ a.length
  · rwa [Nat.min_eq_left hn] at this
  · rw [List.take_of_length_le (by omega)]
    rwa [Nat.min_eq_right (by omega), List.take_of_length_le (Nat.le_refl _)] at this

theorem legal_balance {a : List Op} (h : legal a) (id : Nat) : 0 ≤ balance id a := by
  have := h a.length id; rwa [List.take_of_length_le (Nat.le_refl _)] at this

theorem has_set (s : State) (counts : List Nat) (i v id : Nat) (h : i < counts.length)
    (hc : ∀ j, counts[j]?.getD 0 = s.has j) :
    (counts.set i v)[id]?.getD 0 = if id = i then v else s.has id := by
  by_cases hi : id = i
  · subst hi; simp [h]
  · rw [List.getElem?_set_ne (fun hc => hi hc.symm)]; simp [hi, hc]

theorem acquire_inv (s : State) (hist : List Op) (st : AState) (id : Nat) (hi : Inv s hist)
    (hr : id + 1 < 2 ^ 64) (hb : acquisitions hist + 1 < 2 ^ 31) :
    ∃ s', s.acquire st id = .ok s' ∧ Inv s' (hist ++ [.acquire st id]) := by
  unfold State.acquire
  rw [if_neg (by omega)]
  simp only
  let counts := if id ≥ s.counts.length then grow s.counts (id + 1) else s.counts
  have hlen : id < counts.length := by
    simp only [counts]; split
    · simp [grow]; omega
    · omega
  have hcount : ∀ j, counts[j]?.getD 0 = s.has j := by
    intro j
    simp only [counts]
    split
    · rename_i hge
      simp only [grow, State.has]
      by_cases hj : j < s.counts.length
      · rw [List.getElem?_append_left hj]
      · rw [List.getElem?_append_right (by omega), List.getElem?_eq_none (l := s.counts) (by omega)]
        rw [List.getElem?_replicate]
        split <;> simp
    · rfl
  have hsum : counts.sum = s.counts.sum := by
    simp only [counts]; split
    · exact sum_grow _ _
    · rfl
  have hv : counts[id]? = some counts[id] := List.getElem?_eq_getElem hlen
  have hvh : counts[id] = s.has id := by
    have := hcount id; rw [hv] at this; exact this
  have hle : counts[id] ≤ counts.sum := by
    have := sum_set counts id counts[id] 0 hv; omega
  have hmod : (counts[id] + 1) % u32 = counts[id] + 1 := by
    apply Nat.mod_eq_of_lt
    have := hi.sum
    simp only [u32]; omega
  have key : ∀ s' : State, s'.counts = counts.set id (counts[id] + 1) → Inv s' (hist ++ [.acquire st id]) := by
    intro s' hs'
    constructor
    · intro j
      have : s'.has j = if j = id then counts[id] + 1 else s.has j := by
        unfold State.has
        rw [hs']
        exact has_set s counts id _ j hlen hcount
      rw [this, balance_append]
      simp only [balance]
      have hj := hi.has j
      by_cases hji : j = id
      · subst hji; simp only [if_true, hvh]; omega
      · have : ¬ id = j := fun h => hji h.symm
        simp only [hji, this, if_false]; omega
    · rw [hs', acquisitions_append]
      have h1 := sum_set counts id counts[id] (counts[id] + 1) hv
      have := hi.sum
      simp only [acquisitions]; omega
  change ∃ s', (match counts[id]? with
    | none => Except.error Fault.outOfBounds
    | some v => _) = Except.ok s' ∧ _
  rw [hv]
  simp only [hmod]
  split
  · exact ⟨_, rfl, key _ rfl⟩
  · split
    · exact ⟨_, rfl, key _ rfl⟩
    · exact ⟨_, rfl, key _ rfl⟩

theorem release_inv (s : State) (hist : List Op) (st : AState) (pi ps : Bool) (id : Nat) (hi : Inv s hist)
    (hl : 0 < balance id hist) :
    ∃ s' b c, s.release st pi ps id = .ok (s', b, c) ∧ Inv s' (hist ++ [.release st pi ps id]) ∧
      b = hasAny s'.counts ∧
      c = (if st = .initializing ∧ b = false ∧ pi = false then Cont.initContinue
           else if st = .shuttingDown ∧ b = false ∧ ps = false then Cont.shutdownContinue else Cont.none) := by
  have hh := hi.has id
  have hlen : id < s.counts.length := by
    apply Classical.byContradiction
    intro hc
    have : s.has id = 0 := by unfold State.has; rw [List.getElem?_eq_none (by omega)]; rfl
    omega
  have hv : s.counts[id]? = some s.counts[id] := List.getElem?_eq_getElem hlen
  have hvh : s.has id = s.counts[id] := by unfold State.has; rw [hv]; rfl
  unfold State.release
  rw [hv]
  simp only
  rw [if_neg (by omega)]
  refine ⟨_, _, _, rfl, ?_, rfl, ?_⟩
  · constructor
    · intro j
      have : ({ s with counts := s.counts.set id (s.counts[id] - 1) } : State).has j =
          if j = id then s.counts[id] - 1 else s.has j := by
        unfold State.has
        exact has_set s s.counts id _ j hlen (fun j => rfl)
      rw [this, balance_append]
      simp only [balance]
      have hj := hi.has j
      by_cases hji : j = id
      · subst hji; simp only [if_true]; omega
      · have : ¬ id = j := fun h => hji h.symm
        simp only [hji, this, if_false]; omega
    · rw [acquisitions_append]
      have h1 := sum_set s.counts id s.counts[id] (s.counts[id] - 1) hv
      have := hi.sum
      simp only [acquisitions]; omega
  · generalize hasAny _ = b
    cases st <;> cases b <;> cases pi <;> cases ps <;> rfl

theorem run_inv (ops : List Op) (hl : legal ops) (hr : idsInRange ops) (hb : acquisitions ops < 2 ^ 31) :
    ∃ s, State.activated.run ops = .ok s ∧ Inv s ops := by
  have key : ∀ (post pre : List Op) (s : State), legal (pre ++ post) → idsInRange post →
      acquisitions (pre ++ post) < 2 ^ 31 → Inv s pre → ∃ s', s.run post = .ok s' ∧ Inv s' (pre ++ post) := by
    intro post
    induction post with
    | nil => intro pre s _ _ _ hi; exact ⟨s, rfl, by simpa using hi⟩
    | cons op post ih =>
      intro pre s hl hr hb hi
      have e : pre ++ op :: post = (pre ++ [op]) ++ post := by simp
      rw [e] at hl hb ⊢
      have hr' : idsInRange post := fun o ho => hr o (by simp [ho])
      have hro := hr op (by simp)
      have hba : acquisitions pre + acquisitions [op] ≤ acquisitions (pre ++ [op] ++ post) := by
        rw [acquisitions_append, acquisitions_append]; omega
      cases op with
      | acquire st id =>
        obtain ⟨s1, h1, h2⟩ := acquire_inv s pre st id hi hro (by simp only [acquisitions] at hba; omega)
        obtain ⟨s2, h3, h4⟩ := ih _ s1 hl hr' hb h2
        exact ⟨s2, by simp [State.run, State.step, h1, h3], h4⟩
      | release st pi ps id =>
        have hpos : 0 < balance id pre := by
          have := legal_balance (legal_prefix hl) id
          rw [balance_append] at this
          simp only [balance, if_true] at this; omega
        obtain ⟨s1, b, c, h1, h2, _⟩ := release_inv s pre st pi ps id hi hpos
        obtain ⟨s2, h3, h4⟩ := ih _ s1 hl hr' hb h2
        exact ⟨s2, by simp [State.run, State.step, h1, h3], h4⟩
  have := key ops [] State.activated (by simpa using hl) hr (by simpa using hb)
    ⟨by intro id; simp [State.has, State.activated, balance], by simp [State.activated]⟩
  simpa using this

theorem inv_holds {s : State} {hist : List Op} (hi : Inv s hist) (hb : acquisitions hist < 2 ^ 31) :
    hasAny s.counts = true ↔ holds hist := by
  rw [hasAny_iff _ (by have := hi.sum; omega), sum_pos_iff]
  unfold holds
  constructor
  · rintro ⟨i, v, h1, h2⟩
    refine ⟨i, ?_⟩
    rw [← hi.has i]; unfold State.has; rw [h1]; simp; omega
  · rintro ⟨i, h⟩
    rw [← hi.has i] at h
    unfold State.has at h
    cases hc : s.counts[i]? with
    | none => rw [hc] at h; simp at h
    | some v => rw [hc] at h; exact ⟨i, v, hc, by simpa using h⟩

/-- `n` acquisitions of one resource give the counter `n` (below the width of the counter) -/
theorem run_replicate (n : Nat) (hn : n < u32) :
    State.activated.run (List.replicate n (.acquire .operational 0)) =
      .ok ⟨if n = 0 then [] else [n], false, true, true⟩ := by
  induction n with
  | zero => rfl
  | succ n ih =>
    rw [List.replicate_succ', run_append, ih (by omega)]
    by_cases h0 : n = 0
    · subst h0; rfl
    · have : (n + 1) % u32 = n + 1 := Nat.mod_eq_of_lt hn
      simp [State.run, State.step, State.acquire, h0, this, AState.rank]

end Verif.Resources
