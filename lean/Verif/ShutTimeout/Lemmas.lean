import Verif.ShutTimeout.Model

/-! # Lookups and the invariants of a supervisor with unresponsive children -/

namespace Verif.ShutTimeout

theorem find_kid {l : List Rec} {a : Nat} {r : Rec} (h : find l a = some r) : r.kid = a := by
  have := List.find?_some h
  simpa using this

theorem find_mem {l : List Rec} {a : Nat} {r : Rec} (h : find l a = some r) : r ∈ l := List.mem_of_find?_eq_some h

theorem find_mark (l : List Rec) (a b : Nat) (s : Shut) :
    find (mark l a s) b = if b = a then (find l a).map (fun r => { r with shut := s }) else find l b := by
  induction l with
  | nil => simp [find, mark]
  | cons x l ih =>
    simp only [find, mark, List.map_cons, List.find?_cons] at ih ⊢
    grind

theorem find_drop (l : List Rec) (a b : Nat) : find (drop l a) b = if b = a then none else find l b := by
  induction l with
  | nil => simp [find, drop]
  | cons x l ih =>
    simp only [find, drop, List.filter_cons, List.find?_cons] at ih ⊢
    grind

theorem find_append (l : List Rec) (r : Rec) (b : Nat) :
    find (l ++ [r]) b = (find l b).or (if r.kid = b then some r else none) := by
  induction l with
  | nil => simp [find]
  | cons x l ih =>
    simp only [find, List.cons_append, List.find?_cons] at ih ⊢
    grind

theorem find_of_mem {l : List Rec} (hn : (l.map Rec.kid).Nodup) {r : Rec} (h : r ∈ l) : find l r.kid = some r := by
  induction l with
  | nil => cases h
  | cons x l ih =>
    simp only [List.map_cons, List.nodup_cons] at hn
    simp only [find, List.find?_cons] at ih ⊢
    rcases List.mem_cons.1 h with rfl | h
    · simp
    · have : x.kid ≠ r.kid := fun e => hn.1 (e ▸ List.mem_map_of_mem h)
      have e : (x.kid == r.kid) = false := by simpa using this
      rw [e]; exact ih hn.2 h

theorem find_none_mem {l : List Rec} {a : Nat} (h : find l a = none) : ∀ r ∈ l, r.kid ≠ a := by
  intro r hr e
  have := List.find?_eq_none.1 h r hr
  simp [e] at this

theorem kids_mark (l : List Rec) (a : Nat) (s : Shut) : (mark l a s).map Rec.kid = l.map Rec.kid := by
  simp only [mark, List.map_map]
  apply List.map_congr_left
  intro r _
  simp only [Function.comp]
  split <;> rfl

theorem nodup_drop {l : List Rec} {a : Nat} (h : (l.map Rec.kid).Nodup) : ((drop l a).map Rec.kid).Nodup :=
  h.sublist (List.Sublist.map _ List.filter_sublist)

/-- the state of the request for shutdown of a child, nothing if it has no record -/
def shutOf (σ : State) (a : Nat) : Option Shut := (find σ.recs a).map Rec.shut

/-- what holds whatever the children do -/
structure Inv (σ : State) : Prop where
  nodup : (σ.recs.map Rec.kid).Nodup
  fresh : ∀ r ∈ σ.recs, r.kid < σ.nextKid
  unborn : ∀ a, σ.nextKid ≤ a → σ.kst a = .unborn ∧ σ.inbox a = none ∧ σ.out a = []
  born : ∀ a, a < σ.nextKid → σ.kst a ≠ .unborn
  ids : ∀ p ∈ σ.reqs, p.1 < σ.nextReq
  idsNodup : (σ.reqs.map (·.1)).Nodup
  /-- each asked child has one request or one timeout that is not handled yet -/
  waiting : ∀ a, σ.q.count (.timeout a) + (σ.reqs.map (·.2)).count a = if shutOf σ a = some .sent then 1 else 0
  unsubs : ∀ a, σ.q.count (.unsub a) = if shutOf σ a = some .confirmed then 1 else 0
  /-- a child that was not asked -/
  notAsked : ∀ a, shutOf σ a = some .none → σ.kst a = .operational ∧ σ.inbox a = none ∧ (∀ id, .reply id ∉ σ.out a) ∧
    (∀ id, .kid a (.reply id) ∉ σ.q)
  /-- answers are given by those that have finished -/
  replies : ∀ a id, .reply id ∈ σ.out a ∨ .kid a (.reply id) ∈ σ.q → σ.kst a = .stopped
  firedNodup : σ.fired.Nodup
  errorsNodup : σ.errors.Nodup
  fired : ∀ a, a ∈ σ.fired ↔ a ∈ σ.errors ∨ .timeout a ∈ σ.q
  firedBorn : ∀ a, a ∈ σ.fired → a < σ.nextKid ∧ shutOf σ a ≠ some .none ∧ a ∉ σ.reqs.map (·.2)
  errorsDone : ∀ a, a ∈ σ.errors → shutOf σ a = none ∨ shutOf σ a = some .confirmed
  confirmed : ∀ a, shutOf σ a = some .confirmed → σ.kst a = .stopped ∨ a ∈ σ.errors
  removedNodup : σ.removed.Nodup
  removed : ∀ a, a ∈ σ.removed ↔ a < σ.nextKid ∧ shutOf σ a = none
  gone : ∀ a, a ∈ σ.removed → σ.kst a = .stopped ∨ a ∈ σ.errors
  over : σ.sup = .stopped → σ.recs = []

/-- all children of a supervisor that shuts down have been asked -/
def AllAsked (σ : State) : Prop := σ.sup ≠ .operational → ∀ a, shutOf σ a ≠ some .none

theorem inv_init : Inv .init := by
  constructor <;> simp [State.init, shutOf, find]


theorem count_filter {l : List (Nat × Nat)} (hn : (l.map (·.1)).Nodup) {p : Nat × Nat} (hp : p ∈ l) (b : Nat) :
    ((l.filter (fun x => decide (x ≠ p))).map (·.2)).count b + (if b = p.2 then 1 else 0) = (l.map (·.2)).count b := by
  induction l with
  | nil => cases hp
  | cons x l ih =>
    simp only [List.map_cons, List.nodup_cons] at hn
    rcases List.mem_cons.1 hp with rfl | h
    · have e : l.filter (fun x => decide (x ≠ p)) = l := by
        rw [List.filter_eq_self]
        intro y hy
        simp only [decide_eq_true_eq]
        rintro rfl
        exact hn.1 (List.mem_map_of_mem hy)
      rw [List.filter_cons, if_neg (by simp), e]
      simp only [List.map_cons, List.count_cons, beq_iff_eq]
      grind
    · have hx : x ≠ p := by rintro rfl; exact hn.1 (List.mem_map_of_mem h)
      rw [List.filter_cons, if_pos (by simpa using hx)]
      simp only [List.map_cons, List.count_cons]
      have := ih hn.2 h
      omega

theorem nodup_filter {l : List (Nat × Nat)} (hn : (l.map (·.1)).Nodup) (p : Nat × Nat → Bool) : ((l.filter p).map (·.1)).Nodup :=
  hn.sublist (List.Sublist.map _ List.filter_sublist)

theorem shutOf_isSome {σ : State} {a : Nat} {s : Shut} (h : shutOf σ a = some s) : ∃ r, find σ.recs a = some r ∧ r.shut = s := by
  simpa [shutOf] using h

theorem Inv.lt {σ : State} (h : Inv σ) {a : Nat} {s : Shut} (hs : shutOf σ a = some s) : a < σ.nextKid := by
  obtain ⟨r, hr, -⟩ := shutOf_isSome hs
  have := h.fresh r (find_mem hr)
  rw [find_kid hr] at this
  exact this

theorem shutOf_fresh {σ : State} (h : Inv σ) {a : Nat} (ha : σ.nextKid ≤ a) : shutOf σ a = none := by
  cases e : shutOf σ a with
  | none => rfl
  | some s => have := h.lt e; omega

theorem inv_born {σ : State} (h : Inv σ) (hs : σ.sup = .operational) (fac : Bool) : Inv (born σ fac) := by
  have hf : ∀ a, shutOf (born σ fac) a = if a = σ.nextKid then some .none else shutOf σ a := by
    intro a
    simp only [shutOf, born, find_append]
    by_cases e : a = σ.nextKid
    · have := shutOf_fresh h (Nat.le_refl σ.nextKid)
      simp only [shutOf, Option.map_eq_none_iff] at this
      simp [e, this]
    · simp [e, Ne.symm e]
  have hk : ∀ r ∈ σ.recs, r.kid ≠ σ.nextKid := fun r hr e => by have := h.fresh r hr; omega
  have hu := h.unborn σ.nextKid (Nat.le_refl _)
  have hw := h.waiting σ.nextKid
  have hx := h.unsubs σ.nextKid
  rw [shutOf_fresh h (Nat.le_refl _)] at hw hx
  constructor
  · simp only [born, List.map_append, List.map_cons, List.map_nil]
    rw [List.nodup_append]
    refine ⟨h.nodup, by simp, ?_⟩
    intro x hx y hy
    simp at hy hx
    obtain ⟨r, hr, rfl⟩ := hx
    subst hy
    exact hk r hr
  · intro r hr
    simp only [born, List.mem_append, List.mem_singleton] at hr ⊢
    rcases hr with hr | rfl
    · have := h.fresh r hr; omega
    · simp
  · intro a ha
    simp only [born] at ha ⊢
    have := h.unborn a (by omega)
    refine ⟨?_, this.2⟩
    simp only [upd]; rw [if_neg (by omega)]; exact this.1
  · intro a ha
    simp only [born, upd] at ha ⊢
    split
    · simp
    · exact h.born a (by omega)
  · exact h.ids
  · exact h.idsNodup
  · intro a
    rw [hf]
    by_cases e : a = σ.nextKid
    · subst e
      rw [if_pos rfl]
      simpa [born] using hw
    · rw [if_neg e]; exact h.waiting a
  · intro a
    rw [hf]
    by_cases e : a = σ.nextKid
    · subst e
      rw [if_pos rfl]
      simpa [born] using hx
    · rw [if_neg e]; exact h.unsubs a
  · intro a
    rw [hf]
    by_cases e : a = σ.nextKid
    · subst e
      intro _
      refine ⟨by simp [born, upd], hu.2.1, ?_, ?_⟩
      · intro id; simp [born, hu.2.2]
      · intro id hc
        have := h.replies σ.nextKid id (.inr hc)
        rw [hu.1] at this; cases this
    · rw [if_neg e]
      intro hn
      have := h.notAsked a hn
      refine ⟨?_, this.2⟩
      simp only [born, upd]; rw [if_neg e]; exact this.1
  · intro a id hr
    have := h.replies a id hr
    simp only [born, upd]
    split
    · rename_i e; subst e; rw [hu.1] at this; cases this
    · exact this
  · exact h.firedNodup
  · exact h.errorsNodup
  · exact h.fired
  · intro a ha
    have := h.firedBorn a ha
    rw [hf]
    refine ⟨by simp only [born]; omega, ?_, this.2.2⟩
    rw [if_neg (by omega)]; exact this.2.1
  · intro a ha
    have h1 := h.firedBorn a ((h.fired a).2 (.inl ha))
    rw [hf, if_neg (by omega)]
    exact h.errorsDone a ha
  · intro a
    rw [hf]
    by_cases e : a = σ.nextKid
    · simp [e]
    · rw [if_neg e]
      intro hc
      simp only [born, upd]; rw [if_neg e]
      exact h.confirmed a hc
  · exact h.removedNodup
  · intro a
    rw [hf]
    have := h.removed a
    simp only [born]
    by_cases e : a = σ.nextKid
    · subst e
      rw [if_pos rfl]
      constructor
      · intro hc; have := (this.1 hc).1; omega
      · rintro ⟨_, hc⟩; cases hc
    · rw [if_neg e, this]
      constructor
      · rintro ⟨h1, h2⟩; exact ⟨by omega, h2⟩
      · rintro ⟨h1, h2⟩; exact ⟨by omega, h2⟩
  · intro a ha
    have h1 := (h.removed a).1 ha
    simp only [born, upd]
    rw [if_neg (by omega)]
    exact h.gone a ha
  · intro hc; rw [show (born σ fac).sup = σ.sup from rfl, hs] at hc; cases hc

theorem shutOf_ask {σ : State} {r : Rec} (hr : find σ.recs r.kid = some r) (b : Nat) :
    shutOf (ask σ r) b = if b = r.kid ∧ r.shut = .none then some .sent else shutOf σ b := by
  unfold ask
  by_cases h : r.shut = .none
  · rw [if_pos h]
    simp only [shutOf, find_mark, h, and_true]
    split
    · simp [hr]
    · rfl
  · rw [if_neg h]; simp [h]

theorem inv_ask {σ : State} (h : Inv σ) {r : Rec} (hr : find σ.recs r.kid = some r) : Inv (ask σ r) := by
  by_cases hn : r.shut = .none
  · have hs : shutOf σ r.kid = some .none := by simp [shutOf, hr, hn]
    have hf := shutOf_ask hr
    have ha := h.notAsked _ hs
    have hw := h.waiting r.kid
    have hl := h.lt hs
    rw [hs] at hw
    simp only [hn, and_true] at hf
    have e : ask σ r = { σ with
      recs := mark σ.recs r.kid .sent
      reqs := σ.reqs ++ [(σ.nextReq, r.kid)]
      inbox := upd σ.inbox r.kid (some σ.nextReq)
      nextReq := σ.nextReq + 1 } := by unfold ask; rw [if_pos hn]
    generalize ask σ r = τ at *
    subst e
    constructor
    · simpa only [kids_mark] using h.nodup
    · intro x hx
      have : x.kid ∈ (mark σ.recs r.kid .sent).map Rec.kid := List.mem_map_of_mem hx
      rw [kids_mark] at this
      obtain ⟨y, hy, hxy⟩ := List.mem_map.1 this
      rw [← hxy]; exact h.fresh y hy
    · intro a hle
      have := h.unborn a hle
      refine ⟨this.1, ?_, this.2.2⟩
      simp only [upd]
      rw [if_neg (by have : σ.nextKid ≤ a := hle; omega)]; exact this.2.1
    · exact h.born
    · intro p hp
      simp only [List.mem_append, List.mem_singleton] at hp ⊢
      rcases hp with hp | rfl
      · have := h.ids p hp; omega
      · simp
    · simp only [List.map_append, List.map_cons, List.map_nil]
      rw [List.nodup_append]
      refine ⟨h.idsNodup, by simp, ?_⟩
      intro x hx y hy
      simp at hy
      obtain ⟨p, hp, rfl⟩ := List.mem_map.1 hx
      have := h.ids p hp
      subst hy; omega
    · intro a
      rw [hf]
      have := h.waiting a
      simp only [List.map_append, List.map_cons, List.map_nil, List.count_append, List.count_cons, List.count_nil]
      by_cases e : a = r.kid
      · subst e
        simp only [beq_self_eq_true, if_true]
        simp at hw
        omega
      · simp only [e, if_false]
        rw [if_neg (by simpa using Ne.symm e)]
        omega
    · intro a
      rw [hf]
      have := h.unsubs a
      by_cases e : a = r.kid
      · subst e; rw [hs] at this; simpa using this
      · simpa [e] using this
    · intro a
      rw [hf]
      by_cases e : a = r.kid
      · simp [e]
      · rw [if_neg e]
        intro hc
        have := h.notAsked a hc
        refine ⟨this.1, ?_, this.2.2⟩
        simp only [upd]; rw [if_neg e]; exact this.2.1
    · exact h.replies
    · exact h.firedNodup
    · exact h.errorsNodup
    · exact h.fired
    · intro a hfa
      have := h.firedBorn a hfa
      have e : a ≠ r.kid := by rintro rfl; exact this.2.1 hs
      rw [hf, if_neg e]
      refine ⟨this.1, this.2.1, ?_⟩
      simp only [List.map_append, List.map_cons, List.map_nil, List.mem_append, List.mem_singleton, not_or]
      exact ⟨this.2.2, e⟩
    · intro a hea
      have := h.errorsDone a hea
      have e : a ≠ r.kid := by rintro rfl; rw [hs] at this; simp at this
      rw [hf, if_neg e]; exact this
    · intro a
      rw [hf]
      split
      · simp
      · exact h.confirmed a
    · exact h.removedNodup
    · intro a
      rw [hf]
      have := h.removed a
      by_cases e : a = r.kid
      · subst e; rw [hs] at this; simpa using this
      · rw [if_neg e]; exact this
    · exact h.gone
    · intro hc
      have := h.over hc
      rw [this] at hr; simp [find] at hr
  · have e : ask σ r = σ := by unfold ask; rw [if_neg hn]
    rw [e]; exact h

theorem ask_sup (σ : State) (r : Rec) : (ask σ r).sup = σ.sup ∧ (ask σ r).q = σ.q := by
  unfold ask; split <;> exact ⟨rfl, rfl⟩

theorem find_ask {σ : State} {r x : Rec} (hx : find σ.recs x.kid = some x) (hne : x.kid ≠ r.kid) :
    find (ask σ r).recs x.kid = some x := by
  unfold ask
  split
  · simp only [find_mark, if_neg hne]; exact hx
  · exact hx

/-- asking all children -/
theorem inv_fold (l : List Rec) : ∀ {σ : State}, Inv σ → (l.map Rec.kid).Nodup → (∀ r ∈ l, find σ.recs r.kid = some r) →
    Inv (l.foldl ask σ) ∧ (∀ a, shutOf (l.foldl ask σ) a = if a ∈ l.map Rec.kid ∧ shutOf σ a = some .none then some .sent else shutOf σ a) ∧
      (l.foldl ask σ).sup = σ.sup := by
  induction l with
  | nil => intro σ h _ _; exact ⟨h, by simp, rfl⟩
  | cons r l ih =>
    intro σ h hn hf
    simp only [List.map_cons, List.nodup_cons] at hn
    have hr := hf r List.mem_cons_self
    have h1 := inv_ask h hr
    have := ih h1 hn.2 (fun x hx => find_ask (hf x (List.mem_cons_of_mem _ hx)) (fun e => hn.1 (e ▸ List.mem_map_of_mem hx)))
    rw [List.foldl_cons]
    refine ⟨this.1, ?_, this.2.2.trans (ask_sup σ r).1⟩
    intro a
    rw [this.2.1, shutOf_ask hr]
    have hs : shutOf σ r.kid = some r.shut := by simp [shutOf, hr]
    by_cases e : a = r.kid
    · subst e
      rw [hs]
      cases r.shut <;> simp [hn.1]
    · simp [e]

end Verif.ShutTimeout
