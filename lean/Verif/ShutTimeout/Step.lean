import Verif.ShutTimeout.Lemmas

/-! # The invariant is kept by every operation -/

namespace Verif.ShutTimeout

theorem Inv.sent_of_timeout {σ : State} (h : Inv σ) {a : Nat} (ha : .timeout a ∈ σ.q) : shutOf σ a = some .sent := by
  have h1 := h.waiting a
  have h2 : 0 < σ.q.count (.timeout a) := List.count_pos_iff.2 ha
  apply Classical.byContradiction
  intro hc; rw [if_neg hc] at h1; omega

theorem Inv.sent_of_req {σ : State} (h : Inv σ) {p : Nat × Nat} (ha : p ∈ σ.reqs) : shutOf σ p.2 = some .sent := by
  have h1 := h.waiting p.2
  have h2 : 0 < (σ.reqs.map (·.2)).count p.2 := List.count_pos_iff.2 (List.mem_map_of_mem ha)
  apply Classical.byContradiction
  intro hc; rw [if_neg hc] at h1; omega

theorem Inv.confirmed_of_unsub {σ : State} (h : Inv σ) {a : Nat} (ha : .unsub a ∈ σ.q) : shutOf σ a = some .confirmed := by
  have h1 := h.unsubs a
  have h2 : 0 < σ.q.count (.unsub a) := List.count_pos_iff.2 ha
  apply Classical.byContradiction
  intro hc; rw [if_neg hc] at h1; omega

/-- a message that is neither a timeout nor the end of an unsubscription is taken -/
theorem inv_pop {σ : State} (h : Inv σ) {m : QM} {q : List QM} (hq : σ.q = m :: q) (h1 : ∀ a, m ≠ .timeout a) (h2 : ∀ a, m ≠ .unsub a) :
    Inv { σ with q := q } := by
  have hm : ∀ x, x ∈ q → x ∈ σ.q := fun x hx => hq ▸ List.mem_cons_of_mem _ hx
  have hc : ∀ a, σ.q.count (.timeout a) = q.count (.timeout a) := by
    intro a; rw [hq, List.count_cons, if_neg (by simpa using h1 a)]; rfl
  have hu : ∀ a, σ.q.count (.unsub a) = q.count (.unsub a) := by
    intro a; rw [hq, List.count_cons, if_neg (by simpa using h2 a)]; rfl
  have hs : ∀ a, shutOf { σ with q := q } a = shutOf σ a := fun _ => rfl
  exact {
    nodup := h.nodup, fresh := h.fresh, unborn := h.unborn, born := h.born, ids := h.ids, idsNodup := h.idsNodup
    waiting := fun a => by rw [hs, ← h.waiting a, hc]
    unsubs := fun a => by rw [hs, ← h.unsubs a, hu]
    notAsked := fun a ha => by
      have := h.notAsked a ha
      exact ⟨this.1, this.2.1, this.2.2.1, fun id hc => this.2.2.2 id (hm _ hc)⟩
    replies := fun a id hr => h.replies a id (hr.imp (fun h => h) (hm _))
    firedNodup := h.firedNodup, errorsNodup := h.errorsNodup
    fired := fun a => by
      rw [h.fired a, hq]
      simp only [List.mem_cons]
      constructor
      · rintro (h | h | h)
        · exact .inl h
        · exact absurd h.symm (h1 a)
        · exact .inr h
      · rintro (h | h)
        · exact .inl h
        · exact .inr (.inr h)
    firedBorn := h.firedBorn, errorsDone := h.errorsDone, confirmed := h.confirmed, removedNodup := h.removedNodup
    removed := h.removed, gone := h.gone, over := h.over }

/-- what the shutdown response of a child changes, before its record is treated -/
structure Took (σ : State) (a : Nat) (reqs : List (Nat × Nat)) (q : List QM) (errors : List Nat) : Prop where
  sent : shutOf σ a = some .sent
  count : ∀ b, q.count (.timeout b) + (reqs.map (·.2)).count b + (if b = a then 1 else 0) = σ.q.count (.timeout b) + (σ.reqs.map (·.2)).count b
  unsubs : ∀ b, q.count (.unsub b) = σ.q.count (.unsub b)
  sub : ∀ m, m ∈ q → m ∈ σ.q
  ids : ∀ p, p ∈ reqs → p ∈ σ.reqs
  idsNodup : (reqs.map (·.1)).Nodup
  kept : ∀ b, .timeout b ∈ σ.q → .timeout b ∈ q ∨ (b = a ∧ a ∈ errors)
  errors : (errors = σ.errors ∧ σ.kst a = .stopped) ∨ (errors = a :: σ.errors ∧ .timeout a ∈ σ.q)

theorem Took.facts {σ : State} {a : Nat} {reqs q errors} (h : Inv σ) (t : Took σ a reqs q errors) :
    errors.Nodup ∧ (∀ b, b ∈ σ.fired ↔ b ∈ errors ∨ .timeout b ∈ q) ∧ (∀ b, b ∈ errors → b = a ∨ b ∈ σ.errors) ∧
      (σ.kst a = .stopped ∨ a ∈ errors) ∧ (∀ b, b ∈ σ.errors → b ∈ errors) ∧ a ∉ σ.errors ∧ a ∉ reqs.map (·.2) ∧ .timeout a ∉ q := by
  have hne : a ∉ σ.errors := by
    intro hc
    have := h.errorsDone a hc
    rw [t.sent] at this; simp at this
  have hz := t.count a
  have hw := h.waiting a
  rw [t.sent, if_pos rfl] at hw
  rw [if_pos rfl] at hz
  refine ⟨?_, ?_, ?_, ?_, ?_, hne, ?_, ?_⟩
  · rcases t.errors with ⟨h1, -⟩ | ⟨h1, -⟩
    · rw [h1]; exact h.errorsNodup
    · rw [h1]; exact List.nodup_cons.2 ⟨hne, h.errorsNodup⟩
  · intro b
    rw [h.fired b]
    constructor
    · rintro (h1 | h1)
      · left; rcases t.errors with ⟨h2, -⟩ | ⟨h2, -⟩ <;> rw [h2] <;> simp [h1]
      · rcases t.kept b h1 with h2 | ⟨rfl, h2⟩
        · exact .inr h2
        · exact .inl h2
    · rintro (h1 | h1)
      · rcases t.errors with ⟨h2, -⟩ | ⟨h2, h3⟩
        · rw [h2] at h1; exact .inl h1
        · rw [h2] at h1
          rcases List.mem_cons.1 h1 with rfl | h1
          · exact .inr h3
          · exact .inl h1
      · exact .inr (t.sub _ h1)
  · intro b hb
    rcases t.errors with ⟨h2, -⟩ | ⟨h2, -⟩
    · rw [h2] at hb; exact .inr hb
    · rw [h2] at hb; exact List.mem_cons.1 hb
  · rcases t.errors with ⟨-, h2⟩ | ⟨h2, -⟩
    · exact .inl h2
    · right; rw [h2]; simp
  · intro b hb
    rcases t.errors with ⟨h2, -⟩ | ⟨h2, -⟩ <;> rw [h2] <;> simp [hb]
  · rw [← List.count_eq_zero]; omega
  · rw [← List.count_eq_zero]; omega

/-- the record stays until the subscriptions on behalf of the child are gone -/
theorem inv_marked {σ : State} {a : Nat} {reqs q errors} (h : Inv σ) (t : Took σ a reqs q errors) :
    Inv { σ with recs := mark σ.recs a .confirmed, reqs := reqs, q := q ++ [.unsub a], errors := errors } := by
  obtain ⟨f1, f2, f3, f4, f5, f6, f7, f8⟩ := t.facts h
  obtain ⟨r, hr, -⟩ := shutOf_isSome t.sent
  have hs : ∀ b, shutOf { σ with recs := mark σ.recs a .confirmed, reqs := reqs, q := q ++ [.unsub a], errors := errors } b =
      if b = a then some .confirmed else shutOf σ b := by
    intro b
    simp only [shutOf, find_mark, hr]
    split <;> rfl
  refine {
    nodup := (kids_mark σ.recs a .confirmed).symm ▸ h.nodup
    fresh := ?_
    unborn := h.unborn, born := h.born
    ids := fun p hp => h.ids p (t.ids p hp), idsNodup := t.idsNodup
    waiting := ?_, unsubs := ?_, notAsked := ?_, replies := ?_
    firedNodup := h.firedNodup, errorsNodup := f1
    fired := ?_, firedBorn := ?_, errorsDone := ?_, confirmed := ?_
    removedNodup := h.removedNodup, removed := ?_, gone := ?_, over := ?_ }
  · intro x hx
    have : x.kid ∈ (mark σ.recs a .confirmed).map Rec.kid := List.mem_map_of_mem hx
    rw [kids_mark] at this
    obtain ⟨y, hy, hxy⟩ := List.mem_map.1 this
    rw [← hxy]; exact h.fresh y hy
  · intro b
    have h1 := t.count b
    have h2 := h.waiting b
    rw [hs]
    simp only [List.count_append, List.count_cons, List.count_nil]
    by_cases e : b = a
    · subst e; rw [t.sent] at h2; simp at h1 h2 ⊢; omega
    · simp [e] at h1 ⊢; omega
  · intro b
    have h1 := t.unsubs b
    have h2 := h.unsubs b
    rw [hs]
    simp only [List.count_append, List.count_cons, List.count_nil]
    by_cases e : b = a
    · subst e; rw [t.sent] at h2; simp at h2 ⊢; omega
    · simp [e, Ne.symm e]; omega
  · intro b
    rw [hs]
    by_cases e : b = a
    · simp [e]
    · rw [if_neg e]
      intro hb
      have := h.notAsked b hb
      refine ⟨this.1, this.2.1, this.2.2.1, fun id hc => ?_⟩
      simp at hc
      exact this.2.2.2 id (t.sub _ hc)
  · intro b id hb
    apply h.replies b id
    rcases hb with hb | hb
    · exact .inl hb
    · simp at hb; exact .inr (t.sub _ hb)
  · intro b
    have := f2 b
    simpa using this
  · intro b hb
    have := h.firedBorn b hb
    rw [hs]
    refine ⟨this.1, ?_, ?_⟩
    · split
      · simp
      · exact this.2.1
    · intro hc
      obtain ⟨p, hp, rfl⟩ := List.mem_map.1 hc
      exact this.2.2 (List.mem_map_of_mem (t.ids p hp))
  · intro b hb
    rw [hs]
    rcases f3 b hb with rfl | hb
    · simp
    · split
      · simp
      · exact h.errorsDone b hb
  · intro b
    rw [hs]
    by_cases e : b = a
    · subst e; intro _; exact f4
    · rw [if_neg e]
      intro hb
      exact (h.confirmed b hb).imp (fun h => h) (f5 b)
  · intro b
    rw [hs]
    have := h.removed b
    by_cases e : b = a
    · subst e; rw [t.sent] at this; simpa using this
    · rw [if_neg e]; exact this
  · intro b hb
    exact (h.gone b hb).imp (fun h => h) (f5 b)
  · intro hc
    have := h.over hc
    rw [this] at hr; simp [find] at hr

/-- the record is removed at once -/
theorem inv_dropped {σ : State} {a : Nat} {reqs q errors} (h : Inv σ) (t : Took σ a reqs q errors) :
    Inv { σ with recs := drop σ.recs a, reqs := reqs, q := q, errors := errors, removed := a :: σ.removed } := by
  obtain ⟨f1, f2, f3, f4, f5, f6, f7, f8⟩ := t.facts h
  obtain ⟨r, hr, -⟩ := shutOf_isSome t.sent
  have hs : ∀ b, shutOf { σ with recs := drop σ.recs a, reqs := reqs, q := q, errors := errors, removed := a :: σ.removed } b =
      if b = a then none else shutOf σ b := by
    intro b
    simp only [shutOf, find_drop]
    split <;> rfl
  refine {
    nodup := nodup_drop h.nodup
    fresh := fun x hx => h.fresh x (List.mem_filter.1 hx).1
    unborn := h.unborn, born := h.born
    ids := fun p hp => h.ids p (t.ids p hp), idsNodup := t.idsNodup
    waiting := ?_, unsubs := ?_, notAsked := ?_, replies := ?_
    firedNodup := h.firedNodup, errorsNodup := f1
    fired := f2, firedBorn := ?_, errorsDone := ?_, confirmed := ?_
    removedNodup := ?_, removed := ?_, gone := ?_, over := ?_ }
  · intro b
    have h1 := t.count b
    have h2 := h.waiting b
    rw [hs]
    by_cases e : b = a
    · subst e; rw [t.sent] at h2; simp at h1 h2 ⊢; omega
    · simp [e] at h1 ⊢; omega
  · intro b
    have h1 := t.unsubs b
    have h2 := h.unsubs b
    rw [hs]
    by_cases e : b = a
    · subst e; rw [t.sent] at h2; simp only [if_true] at h2 ⊢; simp only [reduceCtorEq, if_false] at h2 ⊢; simp at h2 ⊢; omega
    · rw [if_neg e]; simp only; omega
  · intro b
    rw [hs]
    by_cases e : b = a
    · simp [e]
    · rw [if_neg e]
      intro hb
      have := h.notAsked b hb
      exact ⟨this.1, this.2.1, this.2.2.1, fun id hc => this.2.2.2 id (t.sub _ hc)⟩
  · intro b id hb
    exact h.replies b id (hb.imp (fun h => h) (t.sub _))
  · intro b hb
    have := h.firedBorn b hb
    rw [hs]
    refine ⟨this.1, ?_, ?_⟩
    · split
      · simp
      · exact this.2.1
    · intro hc
      obtain ⟨p, hp, rfl⟩ := List.mem_map.1 hc
      exact this.2.2 (List.mem_map_of_mem (t.ids p hp))
  · intro b hb
    rw [hs]
    rcases f3 b hb with rfl | hb
    · simp
    · split
      · simp
      · exact h.errorsDone b hb
  · intro b
    rw [hs]
    by_cases e : b = a
    · simp [e]
    · rw [if_neg e]
      intro hb
      exact (h.confirmed b hb).imp (fun h => h) (f5 b)
  · refine List.nodup_cons.2 ⟨?_, h.removedNodup⟩
    intro hc
    have := ((h.removed a).1 hc).2
    rw [t.sent] at this; cases this
  · intro b
    rw [hs]
    have := h.removed b
    by_cases e : b = a
    · subst e; simp [h.lt t.sent]
    · rw [if_neg e]
      simp only [List.mem_cons, e, false_or]
      exact this
  · intro b hb
    rcases List.mem_cons.1 hb with rfl | hb
    · exact f4
    · exact (h.gone b hb).imp (fun h => h) (f5 b)
  · intro hc
    have := h.over hc
    rw [this] at hr; simp [find] at hr

/-- the subscriptions on behalf of the child are gone -/
theorem inv_unsub {σ : State} {a : Nat} {q : List QM} (h : Inv σ) (hq : σ.q = .unsub a :: q) (maps : List Nat) :
    Inv { σ with recs := drop σ.recs a, q := q, maps := maps, removed := a :: σ.removed } := by
  have hc : shutOf σ a = some .confirmed := h.confirmed_of_unsub (hq ▸ List.mem_cons_self)
  obtain ⟨r, hr, -⟩ := shutOf_isSome hc
  have hm : ∀ x, x ∈ q → x ∈ σ.q := fun x hx => hq ▸ List.mem_cons_of_mem _ hx
  have hs : ∀ b, shutOf { σ with recs := drop σ.recs a, q := q, maps := maps, removed := a :: σ.removed } b =
      if b = a then none else shutOf σ b := by
    intro b
    simp only [shutOf, find_drop]
    split <;> rfl
  refine {
    nodup := nodup_drop h.nodup
    fresh := fun x hx => h.fresh x (List.mem_filter.1 hx).1
    unborn := h.unborn, born := h.born, ids := h.ids, idsNodup := h.idsNodup
    waiting := ?_, unsubs := ?_, notAsked := ?_
    replies := fun b id hb => h.replies b id (hb.imp (fun h => h) (hm _))
    firedNodup := h.firedNodup, errorsNodup := h.errorsNodup
    fired := ?_, firedBorn := ?_, errorsDone := ?_, confirmed := ?_
    removedNodup := ?_, removed := ?_, gone := ?_, over := ?_ }
  · intro b
    have h2 := h.waiting b
    rw [hq, List.count_cons] at h2
    rw [hs]
    by_cases e : b = a
    · subst e; rw [hc] at h2; simp at h2 ⊢; exact h2
    · simp [e] at h2 ⊢; omega
  · intro b
    have h2 := h.unsubs b
    rw [hq, List.count_cons] at h2
    rw [hs]
    by_cases e : b = a
    · subst e
      rw [hc] at h2
      simp only [beq_self_eq_true, if_true] at h2 ⊢
      simp only [reduceCtorEq, if_false]
      omega
    · rw [if_neg (by simpa using Ne.symm e)] at h2
      rw [if_neg e]; simp only; omega
  · intro b
    rw [hs]
    by_cases e : b = a
    · simp [e]
    · rw [if_neg e]
      intro hb
      have := h.notAsked b hb
      exact ⟨this.1, this.2.1, this.2.2.1, fun id hc => this.2.2.2 id (hm _ hc)⟩
  · intro b
    rw [h.fired b, hq]; simp
  · intro b hb
    have := h.firedBorn b hb
    rw [hs]
    refine ⟨this.1, ?_, this.2.2⟩
    split
    · simp
    · exact this.2.1
  · intro b hb
    rw [hs]
    split
    · simp
    · exact h.errorsDone b hb
  · intro b
    rw [hs]
    by_cases e : b = a
    · simp [e]
    · rw [if_neg e]; exact h.confirmed b
  · refine List.nodup_cons.2 ⟨?_, h.removedNodup⟩
    intro hx
    have := ((h.removed a).1 hx).2
    rw [hc] at this; cases this
  · intro b
    rw [hs]
    have := h.removed b
    by_cases e : b = a
    · subst e; simp [h.lt hc]
    · rw [if_neg e]
      simp only [List.mem_cons, e, false_or]
      exact this
  · intro b hb
    rcases List.mem_cons.1 hb with rfl | hb
    · exact h.confirmed _ hc
    · exact h.gone b hb
  · intro hx
    have := h.over hx
    rw [this] at hr; simp [find] at hr

theorem drop_mark (l : List Rec) (a : Nat) (s : Shut) : drop (mark l a s) a = drop l a := by
  induction l with
  | nil => rfl
  | cons x l ih =>
    simp only [mark, drop, List.map_cons, List.filter_cons] at ih ⊢
    by_cases e : x.kid = a
    · simp only [e, if_true]; simpa using ih
    · rw [if_neg e]; simp only [ih]

/-- the response for a shutdown request -/
theorem inv_confirm {σ τ : State} {lenient err : Bool} {a : Nat} {reqs q} (h : Inv σ)
    (t : Took σ a reqs q (if err then a :: σ.errors else σ.errors))
    (hs : confirm lenient { σ with reqs := reqs, q := q } a err = .ok τ) : Inv τ := by
  obtain ⟨r, hr, -⟩ := shutOf_isSome t.sent
  unfold confirm at hs
  simp only [hr] at hs
  by_cases hl : (err && !lenient) = true
  · rw [if_pos hl] at hs; cases hs
  · rw [if_neg hl] at hs
    by_cases hm : a ∈ σ.maps
    · rw [if_pos hm] at hs
      cases hs
      exact inv_marked h t
    · rw [if_neg hm] at hs
      unfold remove at hs
      simp only [find_mark, if_true, hr, Option.map_some, drop_mark] at hs
      have hd := inv_dropped h t
      split at hs
      · rename_i ho
        cases hs
        exact inv_born hd ho.1 true
      · cases hs; exact hd

theorem took_timeout {σ : State} {a : Nat} {q : List QM} (h : Inv σ) (hq : σ.q = .timeout a :: q) :
    Took σ a σ.reqs q (a :: σ.errors) := by
  have ha : QM.timeout a ∈ σ.q := hq ▸ List.mem_cons_self
  refine ⟨h.sent_of_timeout ha, ?_, ?_, fun m hm => hq ▸ List.mem_cons_of_mem _ hm, fun _ hp => hp, h.idsNodup, ?_, .inr ⟨rfl, ha⟩⟩
  · intro b
    rw [hq, List.count_cons]
    by_cases e : b = a
    · simp [e]; omega
    · rw [if_neg e, if_neg (by simpa using Ne.symm e)]; omega
  · intro b; rw [hq, List.count_cons]; simp
  · intro b hb
    rw [hq] at hb
    rcases List.mem_cons.1 hb with hb | hb
    · cases hb; right; simp
    · exact .inl hb

theorem took_reply {σ : State} {a id : Nat} {q : List QM} (h : Inv σ) (hq : σ.q = .kid a (.reply id) :: q) (hr : (id, a) ∈ σ.reqs) :
    Took σ a (σ.reqs.filter (fun p => decide (p ≠ (id, a)))) q σ.errors := by
  refine ⟨h.sent_of_req hr, ?_, ?_, fun m hm => hq ▸ List.mem_cons_of_mem _ hm, fun _ hp => (List.mem_filter.1 hp).1, nodup_filter h.idsNodup _, ?_,
    .inl ⟨rfl, h.replies a id (.inr (hq ▸ List.mem_cons_self))⟩⟩
  · intro b
    have := count_filter h.idsNodup hr b
    rw [hq, List.count_cons]
    simp at this ⊢
    omega
  · intro b; rw [hq, List.count_cons]; simp
  · intro b hb
    rw [hq] at hb
    rcases List.mem_cons.1 hb with hb | hb
    · cases hb
    · exact .inl hb

theorem inv_stop {σ : State} (h : Inv σ) (s : Sup) (hs : s ≠ .stopped) : Inv { σ with sup := s } :=
  { nodup := h.nodup, fresh := h.fresh, unborn := h.unborn, born := h.born, ids := h.ids, idsNodup := h.idsNodup, waiting := h.waiting
    unsubs := h.unsubs, notAsked := h.notAsked, replies := h.replies, firedNodup := h.firedNodup, errorsNodup := h.errorsNodup
    fired := h.fired, firedBorn := h.firedBorn, errorsDone := h.errorsDone, confirmed := h.confirmed, removedNodup := h.removedNodup
    removed := h.removed, gone := h.gone, over := fun hc => absurd hc hs }

theorem inv_handle {lenient : Bool} {σ τ : State} {m : QM} {q : List QM} (h : Inv σ) (hq : σ.q = m :: q)
    (hs : handle lenient { σ with q := q } m = .ok τ) : Inv τ := by
  cases m with
  | kid a o =>
    cases o with
    | trigger =>
      have hp := inv_pop h hq (by simp) (by simp)
      simp only [handle] at hs
      split at hs
      · cases hs
      · rename_i r hr
        cases hs
        exact inv_ask hp (by rw [find_kid hr]; exact hr)
    | reply id =>
      simp only [handle] at hs
      split at hs
      · rename_i hr
        exact inv_confirm h (err := false) (took_reply h hq hr) hs
      · cases hs
        exact inv_pop h hq (by simp) (by simp)
  | timeout a =>
    simp only [handle] at hs
    exact inv_confirm h (err := true) (took_timeout h hq) hs
  | unsub a =>
    simp only [handle, remove] at hs
    split at hs
    · cases hs
    · have hd := inv_unsub h hq (σ.maps.filter (fun b => decide (b ≠ a)))
      split at hs
      · rename_i ho
        cases hs
        exact inv_born hd ho.1 true
      · cases hs; exact hd
  | trigSelf =>
    have hp := inv_pop h hq (by simp) (by simp)
    simp only [handle] at hs
    split at hs
    · cases hs
      exact (inv_fold σ.recs (inv_stop hp .stopping (by simp)) h.nodup (fun r hr => find_of_mem h.nodup hr)).1
    · cases hs; exact hp

theorem inv_step {lenient : Bool} {σ τ : State} {o : Op} (h : Inv σ) (hs : step lenient σ o = .ok τ) : Inv τ := by
  cases o with
  | create fac =>
    simp only [step] at hs
    split at hs
    · rename_i ho; cases hs; exact inv_born h ho fac
    · cases hs; exact h
  | kidShutdown a =>
    simp only [step] at hs
    split at hs
    · rename_i ho
      cases hs
      have hm : ∀ b id, .reply id ∈ upd σ.out a (σ.out a ++ [.trigger]) b → .reply id ∈ σ.out b := by
        intro b id hb
        simp only [upd] at hb
        split at hb
        · rename_i e; subst e; simpa using hb
        · exact hb
      exact {
        nodup := h.nodup, fresh := h.fresh, born := h.born, ids := h.ids, idsNodup := h.idsNodup, waiting := h.waiting, unsubs := h.unsubs
        unborn := fun b hb => by
          have := h.unborn b hb
          refine ⟨this.1, this.2.1, ?_⟩
          simp only [upd]
          split
          · rename_i e; subst e; rw [ho] at this; cases this.1
          · exact this.2.2
        notAsked := fun b hb => by
          have := h.notAsked b hb
          exact ⟨this.1, this.2.1, fun id hc => this.2.2.1 id (hm b id hc), this.2.2.2⟩
        replies := fun b id hb => h.replies b id (hb.imp (hm b id) (fun h => h))
        firedNodup := h.firedNodup, errorsNodup := h.errorsNodup
        fired := h.fired, firedBorn := h.firedBorn, errorsDone := h.errorsDone, confirmed := h.confirmed, removedNodup := h.removedNodup
        removed := h.removed, gone := h.gone, over := h.over }
    · cases hs; exact h
  | supShutdown =>
    simp only [step] at hs
    cases hs
    exact {
      nodup := h.nodup, fresh := h.fresh, unborn := h.unborn, born := h.born, ids := h.ids, idsNodup := h.idsNodup
      waiting := fun a => (by have := h.waiting a; rw [List.count_append]; simpa [shutOf] using this)
      unsubs := fun a => (by have := h.unsubs a; rw [List.count_append]; simpa [shutOf] using this)
      notAsked := fun a ha => by simpa using h.notAsked a ha
      replies := fun a id hb => h.replies a id (by simpa using hb)
      firedNodup := h.firedNodup, errorsNodup := h.errorsNodup
      fired := fun a => by simpa using h.fired a
      firedBorn := h.firedBorn, errorsDone := h.errorsDone, confirmed := h.confirmed, removedNodup := h.removedNodup
      removed := h.removed, gone := h.gone, over := h.over }
  | request a =>
    have key : ∀ maps, Inv { σ with maps := maps } := fun maps => {
      nodup := h.nodup, fresh := h.fresh, unborn := h.unborn, born := h.born, ids := h.ids, idsNodup := h.idsNodup
      waiting := h.waiting, unsubs := h.unsubs, notAsked := h.notAsked, replies := h.replies
      firedNodup := h.firedNodup, errorsNodup := h.errorsNodup, fired := h.fired
      firedBorn := h.firedBorn, errorsDone := h.errorsDone, confirmed := h.confirmed, removedNodup := h.removedNodup
      removed := h.removed, gone := h.gone, over := h.over }
    simp only [step] at hs
    split at hs
    · split at hs <;> cases hs
      · exact h
      · exact key _
    · split at hs <;> cases hs
      · exact h
      · exact key _
    · cases hs; exact h
  | asked a =>
    simp only [step] at hs
    split at hs
    · rename_i id hk hi
      cases hs
      have hn : ∀ b, shutOf σ b = some .none → b ≠ a := by
        rintro b hb rfl
        have := (h.notAsked b hb).2.1
        rw [hi] at this; cases this
      have hstop : ∀ b, σ.kst b = .stopped → b ≠ a := by
        rintro b hb rfl
        rw [hk] at hb; cases hb
      exact {
        nodup := h.nodup, fresh := h.fresh, ids := h.ids, idsNodup := h.idsNodup, waiting := h.waiting, unsubs := h.unsubs
        unborn := fun b hb => by
          have := h.unborn b hb
          have e : b ≠ a := by rintro rfl; rw [hk] at this; cases this.1
          simp only [upd]; rw [if_neg e, if_neg e]; exact this
        born := fun b hb => by
          simp only [upd]
          split
          · simp
          · exact h.born b hb
        notAsked := fun b hb => by
          have := h.notAsked b hb
          simp only [upd]; rw [if_neg (hn b hb), if_neg (hn b hb)]; exact this
        replies := fun b id hb => by
          have := h.replies b id hb
          simp only [upd]; rw [if_neg (hstop b this)]; exact this
        firedNodup := h.firedNodup, errorsNodup := h.errorsNodup
        fired := h.fired, firedBorn := h.firedBorn, errorsDone := h.errorsDone
        confirmed := fun b hb => (h.confirmed b hb).imp (fun hk => by simp only [upd]; rw [if_neg (hstop b hk)]; exact hk) (fun h => h)
        removedNodup := h.removedNodup
        removed := h.removed
        gone := fun b hb => (h.gone b hb).imp (fun hk => by simp only [upd]; rw [if_neg (hstop b hk)]; exact hk) (fun h => h)
        over := h.over }
    · cases hs; exact h
  | kidFinish a =>
    simp only [step] at hs
    split at hs
    · rename_i id hk
      cases hs
      have hn : ∀ b, shutOf σ b = some .none → b ≠ a := by
        rintro b hb rfl
        have := (h.notAsked b hb).1
        rw [hk] at this; cases this
      exact {
        nodup := h.nodup, fresh := h.fresh, ids := h.ids, idsNodup := h.idsNodup, waiting := h.waiting, unsubs := h.unsubs
        unborn := fun b hb => by
          have := h.unborn b hb
          have e : b ≠ a := by rintro rfl; rw [hk] at this; cases this.1
          simp only [upd]; rw [if_neg e, if_neg e]; exact this
        born := fun b hb => by
          simp only [upd]
          split
          · simp
          · exact h.born b hb
        notAsked := fun b hb => by
          have := h.notAsked b hb
          simp only [upd]; rw [if_neg (hn b hb), if_neg (hn b hb)]; exact this
        replies := fun b id hb => by
          simp only [upd] at hb ⊢
          by_cases e : b = a
          · rw [if_pos e]
          · rw [if_neg e] at hb ⊢; exact h.replies b id hb
        firedNodup := h.firedNodup, errorsNodup := h.errorsNodup
        fired := h.fired, firedBorn := h.firedBorn, errorsDone := h.errorsDone
        confirmed := fun b hb => (h.confirmed b hb).imp (fun hk => by simp only [upd]; split <;> first | rfl | exact hk) (fun h => h)
        removedNodup := h.removedNodup
        removed := h.removed
        gone := fun b hb => (h.gone b hb).imp (fun hk => by simp only [upd]; split <;> first | rfl | exact hk) (fun h => h)
        over := h.over }
    · cases hs; exact h
  | arrive a =>
    simp only [step] at hs
    split at hs
    · cases hs; exact h
    · rename_i o os ho
      cases hs
      have hm : ∀ b id, .reply id ∈ upd σ.out a os b ∨ .kid b (.reply id) ∈ σ.q ++ [.kid a o] → .reply id ∈ σ.out b ∨ .kid b (.reply id) ∈ σ.q := by
        intro b id hb
        simp only [upd, List.mem_append, List.mem_singleton] at hb
        rcases hb with hb | hb | hb
        · split at hb
          · rename_i e; subst e; left; rw [ho]; exact List.mem_cons_of_mem _ hb
          · exact .inl hb
        · exact .inr hb
        · cases hb; left; rw [ho]; exact List.mem_cons_self
      exact {
        nodup := h.nodup, fresh := h.fresh, born := h.born, ids := h.ids, idsNodup := h.idsNodup
        waiting := fun a => (by have := h.waiting a; rw [List.count_append]; simpa [shutOf] using this)
        unsubs := fun a => (by have := h.unsubs a; rw [List.count_append]; simpa [shutOf] using this)
        unborn := fun b hb => by
          have := h.unborn b hb
          refine ⟨this.1, this.2.1, ?_⟩
          simp only [upd]
          split
          · rename_i e; subst e; rw [ho] at this; cases this.2.2
          · exact this.2.2
        notAsked := fun b hb => by
          have := h.notAsked b hb
          have h2 : ∀ id, ¬ (.reply id ∈ σ.out b ∨ .kid b (.reply id) ∈ σ.q) := fun id hc => hc.elim (this.2.2.1 id) (this.2.2.2 id)
          exact ⟨this.1, this.2.1, fun id hc => h2 id (hm b id (.inl hc)), fun id hc => h2 id (hm b id (.inr hc))⟩
        replies := fun b id hb => h.replies b id (hm b id hb)
        firedNodup := h.firedNodup, errorsNodup := h.errorsNodup
        fired := fun a => by simpa using h.fired a
        firedBorn := h.firedBorn, errorsDone := h.errorsDone, confirmed := h.confirmed, removedNodup := h.removedNodup
        removed := h.removed, gone := h.gone, over := h.over }
  | timer id =>
    simp only [step] at hs
    split at hs
    · cases hs; exact h
    · rename_i p hp
      cases hs
      have hpm := List.mem_of_find?_eq_some hp
      have hsent := h.sent_of_req hpm
      have hw := h.waiting p.2
      rw [hsent, if_pos rfl] at hw
      have hpos : 0 < (σ.reqs.map (·.2)).count p.2 := List.count_pos_iff.2 (List.mem_map_of_mem hpm)
      have hnot : p.2 ∉ (σ.reqs.filter (fun x => decide (x ≠ p))).map (·.2) := by
        have := count_filter h.idsNodup hpm p.2
        rw [if_pos rfl] at this
        rw [← List.count_eq_zero]; omega
      exact {
        nodup := h.nodup, fresh := h.fresh, unborn := h.unborn, born := h.born
        ids := fun x hx => h.ids x (List.mem_filter.1 hx).1
        idsNodup := nodup_filter h.idsNodup _
        waiting := fun a => by
          have h1 := count_filter h.idsNodup hpm a
          have h2 := h.waiting a
          rw [show shutOf { σ with reqs := σ.reqs.filter (fun x => decide (x ≠ p)), q := σ.q ++ [.timeout p.2], fired := p.2 :: σ.fired } a = shutOf σ a from rfl]
          rw [← h2, List.count_append, List.count_cons, List.count_nil]
          by_cases e : a = p.2
          · subst e; simp at h1 ⊢; omega
          · rw [if_neg e] at h1; rw [if_neg (by simpa using Ne.symm e)]; simp at h1 ⊢; omega
        unsubs := fun a => (by have := h.unsubs a; rw [List.count_append]; simpa [shutOf] using this)
        notAsked := fun a ha => by simpa using h.notAsked a ha
        replies := fun a id hb => h.replies a id (by simpa using hb)
        firedNodup := List.nodup_cons.2 ⟨fun hc => (h.firedBorn p.2 hc).2.2 (List.mem_map_of_mem hpm), h.firedNodup⟩
        errorsNodup := h.errorsNodup
        fired := fun a => by
          have := h.fired a
          simp only [List.mem_cons, List.mem_append, List.not_mem_nil, or_false, QM.timeout.injEq]
          rw [this]
          constructor
          · rintro (h | h | h)
            · exact .inr (.inr h)
            · exact .inl h
            · exact .inr (.inl h)
          · rintro (h | h | h)
            · exact .inr (.inl h)
            · exact .inr (.inr h)
            · exact .inl h
        firedBorn := fun a ha => by
          rcases List.mem_cons.1 ha with rfl | ha
          · exact ⟨h.lt hsent, (by rw [show shutOf { σ with reqs := σ.reqs.filter (fun x => decide (x ≠ p)), q := σ.q ++ [.timeout p.2], fired := p.2 :: σ.fired } p.2 = shutOf σ p.2 from rfl, hsent]; simp), hnot⟩
          · have := h.firedBorn a ha
            refine ⟨this.1, this.2.1, fun hc => this.2.2 ?_⟩
            obtain ⟨x, hx, rfl⟩ := List.mem_map.1 hc
            exact List.mem_map_of_mem (List.mem_filter.1 hx).1
        errorsDone := h.errorsDone, confirmed := h.confirmed, removedNodup := h.removedNodup
        removed := h.removed, gone := h.gone, over := h.over }
  | process =>
    simp only [step] at hs
    split at hs
    · cases hs; exact h
    · rename_i m q hq
      split at hs
      · rename_i hst
        cases hs
        have hr := h.over hst
        have hn : ∀ a, shutOf σ a = none := fun a => by simp [shutOf, hr, find]
        refine inv_pop h hq ?_ ?_
        · rintro a rfl
          have := h.sent_of_timeout (hq ▸ List.mem_cons_self : QM.timeout a ∈ σ.q)
          rw [hn] at this; cases this
        · rintro a rfl
          have := h.confirmed_of_unsub (hq ▸ List.mem_cons_self : QM.unsub a ∈ σ.q)
          rw [hn] at this; cases this
      · exact inv_handle h hq hs
  | finish =>
    simp only [step] at hs
    split at hs
    · rename_i hc
      split at hs
      · cases hs
        exact {
          nodup := h.nodup, fresh := h.fresh, unborn := h.unborn, born := h.born, ids := h.ids, idsNodup := h.idsNodup, waiting := h.waiting
          unsubs := h.unsubs, notAsked := h.notAsked, replies := h.replies, firedNodup := h.firedNodup, errorsNodup := h.errorsNodup
          fired := h.fired, firedBorn := h.firedBorn, errorsDone := h.errorsDone, confirmed := h.confirmed, removedNodup := h.removedNodup
          removed := h.removed, gone := h.gone, over := fun _ => hc.2 }
      · cases hs
    · cases hs; exact h

theorem inv_run {lenient : Bool} {σ τ : State} {os : List Op} (h : Inv σ) (hr : run lenient σ os = .ok τ) : Inv τ := by
  induction os generalizing σ with
  | nil => cases hr; exact h
  | cons o os ih =>
    simp only [run] at hr
    split at hr
    · cases hr
    · rename_i σ' hs; exact ih (inv_step h hs) hr

end Verif.ShutTimeout
