import Verif.Subscription.Spec

/-! # Proof machinery for the subscription table -/

namespace Verif.Subscription
open Verif

/-! ### list helpers -/

theorem eraseIf_map {α β : Type} (L : List α) (f : α → β) (p : β → Bool) (g : α → Bool)
    (hg : ∀ x ∈ L, p (f x) = g x) (hex : ∃ x ∈ L, g x = true)
    (hone : L.Pairwise (fun x y => ¬(g x = true ∧ g y = true))) :
    eraseIf p (L.map f) = some ((L.filter (fun x => !g x)).map f) := by
  induction L with
  | nil => simp at hex
  | cons x r ih =>
    simp only [List.map_cons, eraseIf]
    have hx := hg x (by simp)
    rw [List.pairwise_cons] at hone
    by_cases h : g x = true
    · have hr : r.filter (fun x => !g x) = r := by
        apply List.filter_eq_self.2
        intro y hy
        have := hone.1 y hy
        simp [h] at this; simp [this]
      simp [hx, h, hr]
    · have h' : g x = false := by simpa using h
      simp only [hx, h', List.filter_cons, Bool.not_false, if_true, List.map_cons]
      rw [ih (fun y hy => hg y (by simp [hy])) ?_ hone.2]
      · simp
      · obtain ⟨y, hy, hgy⟩ := hex
        rcases List.mem_cons.1 hy with rfl | hy
        · simp [h'] at hgy
        · exact ⟨y, hy, hgy⟩

theorem replaceIf_map {α β : Type} (L : List α) (f : α → β) (p : β → Bool) (y : β) (g : α → Bool)
    (hg : ∀ x ∈ L, p (f x) = g x) (hex : ∃ x ∈ L, g x = true)
    (hone : L.Pairwise (fun x y => ¬(g x = true ∧ g y = true))) :
    replaceIf p y (L.map f) = some (L.map (fun x => if g x then y else f x)) := by
  induction L with
  | nil => simp at hex
  | cons x r ih =>
    simp only [List.map_cons, replaceIf]
    have hx := hg x (by simp)
    rw [List.pairwise_cons] at hone
    by_cases h : g x = true
    · have hr : r.map (fun x => if g x then y else f x) = r.map f := by
        apply List.map_congr_left
        intro z hz
        have := hone.1 z hz
        simp [h] at this; simp [this]
      simp [hx, h, hr]
    · have h' : g x = false := by simpa using h
      simp only [hx, h', Bool.false_eq_true, if_false]
      rw [ih (fun y hy => hg y (by simp [hy])) ?_ hone.2]
      · simp
      · obtain ⟨z, hz, hgz⟩ := hex
        rcases List.mem_cons.1 hz with rfl | hz
        · simp [h'] at hgz
        · exact ⟨z, hz, hgz⟩

theorem eraseIf_perm {α : Type} (p : α → Bool) (l l' : List α) (h : eraseIf p l = some l') :
    ∃ x, p x = true ∧ l.Perm (x :: l') := by
  induction l generalizing l' with
  | nil => simp [eraseIf] at h
  | cons y r ih =>
    simp only [eraseIf] at h
    split at h
    · rename_i hy
      simp only [Option.some.injEq] at h; subst h
      exact ⟨y, hy, List.Perm.refl _⟩
    · cases hr : eraseIf p r with
      | none => simp [hr] at h
      | some r' =>
        simp only [hr, Option.map_some, Option.some.injEq] at h; subst h
        obtain ⟨x, hx, hp⟩ := ih _ hr
        exact ⟨x, hx, (hp.cons y).trans (List.Perm.swap x y r')⟩

theorem eraseIf_isSome {α : Type} (p : α → Bool) (l : List α) (h : ∃ x ∈ l, p x = true) :
    ∃ l', eraseIf p l = some l' := by
  induction l with
  | nil => simp at h
  | cons y r ih =>
    simp only [eraseIf]
    split
    · exact ⟨r, rfl⟩
    · rename_i hy
      obtain ⟨x, hx, hpx⟩ := h
      rcases List.mem_cons.1 hx with rfl | hx
      · exact absurd hpx hy
      · obtain ⟨l', hl'⟩ := ih ⟨x, hx, hpx⟩
        exact ⟨y :: l', by simp [hl']⟩

/-! ### lists of the specification -/

/-- ids of the live subscriptions to `a` kept in the info list -/
def idsAt (w : World) (loc : Loc) (s : Spec) (a : AddrId) : List InfoId :=
  (s.live.filter (fun l => decide (l.addr = a) && decide (w.addrLoc l.addr = loc))).map (·.id)

/-- `none` for an empty list -/
def optList {α : Type} (l : List α) : Option (List α) := if l = [] then none else some l

/-- `none` for two empty lists -/
def optJoint (i e : List HandlerId) : Option Joint := if i = [] ∧ e = [] then none else some ⟨i, e⟩

theorem recipientsOf_optJoint (i e : List HandlerId) : recipientsOf (optJoint i e) = (i, e) := by
  unfold optJoint; split
  · rename_i h; simp [recipientsOf, h.1, h.2]
  · rfl

/-- The refinement relation between the table and the specification. -/
structure Inv (w : World) (t : Table) (s : Spec) : Prop where
  made : t.heap.length = s.made
  lt : ∀ l ∈ s.live, l.id < s.made
  nodup : s.live.Pairwise (fun l l' => l.id ≠ l'.id)
  distinct : s.live.Pairwise (fun l l' => ¬(l.addr = l'.addr ∧ l.handler = l'.handler))
  heap : ∀ l ∈ s.live, t.heap[l.id]? =
    some ⟨l.handler, l.addr, decide (w.addrLoc l.addr = t.mainLoc), decide (w.handlerLoc l.handler = t.mainLoc)⟩
  infos : ∀ a, t.infos.find a = optList (idsAt w t.mainLoc s a)
  mine : ∀ a ty, t.mine.find (a, ty) =
    optJoint (s.expected w t.mainLoc a ty true) (s.expected w t.mainLoc a ty false)

theorem inv_empty (w : World) (loc : Loc) : Inv w (Table.empty loc) Spec.empty := by
  constructor <;> simp [Table.empty, Spec.empty, idsAt, Spec.expected, optList, optJoint]

theorem optList_getD {α : Type} (l : List α) : (optList l).getD [] = l := by
  unfold optList; split <;> simp_all

theorem optJoint_getD (i e : List HandlerId) : (optJoint i e).getD ⟨[], []⟩ = ⟨i, e⟩ := by
  unfold optJoint; split <;> simp_all

theorem expected_append (w : World) (loc : Loc) (s : Spec) (n : Nat) (x : Live) (a : AddrId) (ty : TypeId) (own : Bool) :
    Spec.expected w loc ⟨n, s.live ++ [x]⟩ a ty own = s.expected w loc a ty own ++
      (if x.addr = a ∧ w.msgType x.handler = ty ∧ w.addrLoc x.addr = loc ∧
        decide (w.handlerLoc x.handler = loc) = own then [x.handler] else []) := by
  simp only [Spec.expected, List.filter_append, List.map_append, List.append_cancel_left_eq]
  simp only [List.filter_cons, List.filter_nil]
  split <;> split <;> grind

theorem idsAt_append (w : World) (loc : Loc) (s : Spec) (n : Nat) (x : Live) (a : AddrId) :
    idsAt w loc ⟨n, s.live ++ [x]⟩ a = idsAt w loc s a ++
      (if x.addr = a ∧ w.addrLoc x.addr = loc then [x.id] else []) := by
  simp only [idsAt, List.filter_append, List.map_append, List.append_cancel_left_eq]
  simp only [List.filter_cons, List.filter_nil]
  split <;> split <;> grind

theorem inv_subscribe (w : World) (t : Table) (s : Spec) (h : HandlerId) (a : AddrId)
    (hi : Inv w t s) (hl : s.legal w (.subscribe h a)) :
    Inv w (t.materialize w h a).1 (s.step (.subscribe h a)) := by
  have hloc : (t.materialize w h a).1.mainLoc = t.mainLoc := by
    simp only [Table.materialize]; split <;> rfl
  have hheap : (t.materialize w h a).1.heap = t.heap ++
      [⟨h, a, decide (w.addrLoc a = t.mainLoc), decide (w.handlerLoc h = t.mainLoc)⟩] := by
    simp only [Table.materialize]; split <;> rfl
  constructor
  · simp [hheap, Spec.step, hi.made]
  · intro l hl'
    simp only [Spec.step, List.mem_append, List.mem_singleton] at hl' ⊢
    rcases hl' with hl' | rfl
    · have := hi.lt l hl'; exact Nat.lt_succ_of_lt this
    · simp
  · simp only [Spec.step, List.pairwise_append]
    refine ⟨hi.nodup, by simp, ?_⟩
    intro x hx y hy
    simp only [List.mem_singleton] at hy; subst hy
    have := hi.lt x hx; simp only; exact Nat.ne_of_lt this
  · simp only [Spec.step, List.pairwise_append]
    refine ⟨hi.distinct, by simp, ?_⟩
    intro x hx y hy
    simp only [List.mem_singleton] at hy; subst hy
    simp only [Spec.legal] at hl
    intro hc; exact hl x hx hc.1 hc.2
  · intro l hl'
    rw [hheap, hloc]
    simp only [Spec.step, List.mem_append, List.mem_singleton] at hl'
    rcases hl' with hl' | rfl
    · have := hi.heap l hl'
      have h2 := hi.lt l hl'
      rw [List.getElem?_append_left (by rw [hi.made]; exact h2), this]
    · simp [← hi.made]
  · intro b
    rw [hloc]
    simp only [Spec.step]
    rw [idsAt_append]
    simp only [Table.materialize]
    have hb := hi.infos b
    have ha := hi.infos a
    split
    · rename_i hint
      simp only [decide_eq_true_eq] at hint
      simp only [AMap.find_set]
      by_cases hab : b = a
      · subst hab
        simp only [hint, and_self, if_true, ha, optList_getD]
        rw [hi.made]
        simp [optList]
      · have : ¬ a = b := fun h => hab h.symm
        simp [hab, hb, this]
    · rename_i hint
      simp only [decide_eq_true_eq] at hint
      simp [hint, hb]
  · intro b ty
    rw [hloc]
    simp only [Spec.step]
    rw [expected_append, expected_append]
    simp only [Table.materialize]
    have hb := hi.mine b ty
    have ha := hi.mine a (w.msgType h)
    split
    · rename_i hint
      simp only [decide_eq_true_eq] at hint
      simp only [AMap.find_set]
      by_cases hab : (b, ty) = (a, w.msgType h)
      · simp only [Prod.mk.injEq] at hab
        obtain ⟨rfl, rfl⟩ := hab
        simp only [ha, optJoint_getD, if_true, hint, true_and]
        by_cases hh : w.handlerLoc h = t.mainLoc
        · simp [hh, Joint.put, Joint.get, optJoint]
        · simp [hh, Joint.put, Joint.get, optJoint]
      · have h1 : ¬ (a = b ∧ w.msgType h = ty) := by
          intro ⟨x, y⟩; exact hab (by simp [x, y])
        have h2 : ∀ q r, ¬ (a = b ∧ w.msgType h = ty ∧ q ∧ r) := fun q r x => h1 ⟨x.1, x.2.1⟩
        simp only [hab, if_false, hb]
        rw [if_neg (h2 _ _), if_neg (h2 _ _)]; simp
    · rename_i hint
      simp only [decide_eq_true_eq] at hint
      simp [hint, hb]

/-- the only live subscription with the id / with the handler at the address -/
theorem live_unique_id {w : World} {t : Table} {s : Spec} (hi : Inv w t s) {x y : Live}
    (hx : x ∈ s.live) (hy : y ∈ s.live) (h : x.id = y.id) : x = y := by
  have := List.pairwise_iff_getElem.1 hi.nodup
  obtain ⟨i, hi', rfl⟩ := List.getElem_of_mem hx
  obtain ⟨j, hj', rfl⟩ := List.getElem_of_mem hy
  rcases Nat.lt_trichotomy i j with hij | rfl | hij
  · exact absurd h (this i j hi' hj' hij)
  · rfl
  · exact absurd h.symm (this j i hj' hi' hij)

theorem live_unique_handler {w : World} {t : Table} {s : Spec} (hi : Inv w t s) {x y : Live}
    (hx : x ∈ s.live) (hy : y ∈ s.live) (h : x.addr = y.addr) (h' : x.handler = y.handler) : x = y := by
  have := List.pairwise_iff_getElem.1 hi.distinct
  obtain ⟨i, hi', rfl⟩ := List.getElem_of_mem hx
  obtain ⟨j, hj', rfl⟩ := List.getElem_of_mem hy
  rcases Nat.lt_trichotomy i j with hij | rfl | hij
  · exact absurd ⟨h, h'⟩ (this i j hi' hj' hij)
  · rfl
  · exact absurd ⟨h.symm, h'.symm⟩ (this j i hj' hi' hij)

theorem expected_forget (w : World) (loc : Loc) (s : Spec) (id : InfoId) (a : AddrId) (ty : TypeId) (own : Bool) :
    (s.step (.forget id)).expected w loc a ty own =
      ((s.live.filter (fun l => decide (l.addr = a) && decide (w.msgType l.handler = ty) &&
        decide (w.addrLoc l.addr = loc) && (decide (w.handlerLoc l.handler = loc) == own))).filter
          (fun l => !decide (l.id = id))).map (·.handler) := by
  simp only [Spec.step, Spec.expected, List.filter_filter]
  congr 1
  apply List.filter_congr
  intro x _
  simp only [ne_eq, decide_not]
  rw [Bool.and_comm]

theorem idsAt_forget (w : World) (loc : Loc) (s : Spec) (id : InfoId) (a : AddrId) :
    idsAt w loc (s.step (.forget id)) a =
      ((s.live.filter (fun l => decide (l.addr = a) && decide (w.addrLoc l.addr = loc))).filter
          (fun l => !decide (l.id = id))).map (·.id) := by
  simp only [Spec.step, idsAt, List.filter_filter]
  congr 1
  apply List.filter_congr
  intro x _
  simp only [ne_eq, decide_not]
  rw [Bool.and_comm]

theorem pairwise_id {w : World} {t : Table} {s : Spec} (hi : Inv w t s) (id : InfoId) (q : Live → Bool) :
    (s.live.filter q).Pairwise (fun x y => ¬((decide (x.id = id)) = true ∧ (decide (y.id = id)) = true)) := by
  apply List.Pairwise.filter
  apply hi.nodup.imp
  intro a b hab hc
  simp only [decide_eq_true_eq] at hc
  exact hab (hc.1.trans hc.2.symm)

theorem inv_forget (w : World) (t : Table) (s : Spec) (id : InfoId)
    (hi : Inv w t s) (hl : s.legal w (.forget id)) :
    ∃ t', t.forget w id = .ok t' ∧ t'.mainLoc = t.mainLoc ∧ Inv w t' (s.step (.forget id)) := by
  obtain ⟨x, hx, rfl⟩ := hl
  have hheap := hi.heap x hx
  simp only [Table.forget, hheap]
  -- facts about the specification that are common to both cases
  have hlive : ∀ l, l ∈ (s.step (.forget x.id)).live ↔ l ∈ s.live ∧ l.id ≠ x.id := by
    intro l; simp [Spec.step]
  have hnd : (s.step (.forget x.id)).live.Pairwise (fun l l' => l.id ≠ l'.id) := hi.nodup.filter _
  have hds : (s.step (.forget x.id)).live.Pairwise
      (fun l l' => ¬(l.addr = l'.addr ∧ l.handler = l'.handler)) := hi.distinct.filter _
  by_cases hint : w.addrLoc x.addr = t.mainLoc
  · simp only [hint, decide_true, if_true]
    have hinf := hi.infos x.addr
    have hne : idsAt w t.mainLoc s x.addr ≠ [] := by
      intro hc
      have : x.id ∈ idsAt w t.mainLoc s x.addr := by
        simp only [idsAt, List.mem_map, List.mem_filter]
        exact ⟨x, ⟨hx, by simp [hint]⟩, rfl⟩
      rw [hc] at this; simp at this
    have hids : t.infos.find x.addr = some (idsAt w t.mainLoc s x.addr) := by
      rw [hinf, optList, if_neg hne]
    have herase : eraseIf (fun y => t.handlerOf y == some x.handler) (idsAt w t.mainLoc s x.addr) =
        some (idsAt w t.mainLoc (s.step (.forget x.id)) x.addr) := by
      rw [idsAt_forget]
      unfold idsAt
      apply eraseIf_map
      · intro y hy
        simp only [List.mem_filter, Bool.and_eq_true, decide_eq_true_eq] at hy
        simp only [Table.handlerOf, hi.heap y hy.1, Option.map_some]
        by_cases hyx : y.handler = x.handler
        · have := live_unique_handler hi hy.1 hx hy.2.1 hyx
          simp [this]
        · have : y.id ≠ x.id := fun hc => hyx (by rw [live_unique_id hi hy.1 hx hc])
          simp [hyx, this]
      · exact ⟨x, by simp [hx, hint], by simp⟩
      · exact pairwise_id hi _ _
    simp only [hids, herase]
    have hmine := hi.mine x.addr (w.msgType x.handler)
    let own := decide (w.handlerLoc x.handler = t.mainLoc)
    have hmem : x.handler ∈ s.expected w t.mainLoc x.addr (w.msgType x.handler) own := by
      simp only [Spec.expected, List.mem_map, List.mem_filter]
      exact ⟨x, ⟨hx, by simp [hint, own]⟩, rfl⟩
    have hj : t.mine.find (x.addr, w.msgType x.handler) =
        some ⟨s.expected w t.mainLoc x.addr (w.msgType x.handler) true,
              s.expected w t.mainLoc x.addr (w.msgType x.handler) false⟩ := by
      rw [hmine, optJoint, if_neg]
      intro hc
      cases hown : own with
      | true => rw [hown, hc.1] at hmem; simp at hmem
      | false => rw [hown, hc.2] at hmem; simp at hmem
    have hget : ∀ b, (Joint.mk (s.expected w t.mainLoc x.addr (w.msgType x.handler) true)
              (s.expected w t.mainLoc x.addr (w.msgType x.handler) false)).get b =
              s.expected w t.mainLoc x.addr (w.msgType x.handler) b := by
      intro b; cases b <;> simp [Joint.get]
    have herase2 : eraseIf (fun y => y == x.handler) (s.expected w t.mainLoc x.addr (w.msgType x.handler) own) =
        some ((s.step (.forget x.id)).expected w t.mainLoc x.addr (w.msgType x.handler) own) := by
      rw [expected_forget]
      unfold Spec.expected
      apply eraseIf_map
      · intro y hy
        simp only [List.mem_filter, Bool.and_eq_true, decide_eq_true_eq] at hy
        by_cases hyx : y.handler = x.handler
        · have := live_unique_handler hi hy.1 hx hy.2.1.1.1 hyx
          simp [this]
        · have : y.id ≠ x.id := fun hc => hyx (by rw [live_unique_id hi hy.1 hx hc])
          simp [hyx, this]
      · exact ⟨x, by simp [hx, hint, own], by simp⟩
      · exact pairwise_id hi _ _
    -- the lists that are not touched
    have hother : ∀ b ty b', (b, ty, b') ≠ (x.addr, w.msgType x.handler, own) →
        (s.step (.forget x.id)).expected w t.mainLoc b ty b' = s.expected w t.mainLoc b ty b' := by
      intro b ty b' hne
      rw [expected_forget]
      unfold Spec.expected
      congr 1
      apply List.filter_eq_self.2
      intro y hy
      simp only [List.mem_filter, Bool.and_eq_true, decide_eq_true_eq, beq_iff_eq] at hy
      simp only [Bool.not_eq_true', decide_eq_false_iff_not]
      intro hc
      have := live_unique_id hi hy.1 hx hc
      subst this
      apply hne
      simp [own, hy.2.1.1.1, hy.2.1.1.2, hy.2.2]
    have hidsother : ∀ b, b ≠ x.addr → idsAt w t.mainLoc (s.step (.forget x.id)) b = idsAt w t.mainLoc s b := by
      intro b hne
      rw [idsAt_forget]
      unfold idsAt
      congr 1
      apply List.filter_eq_self.2
      intro y hy
      simp only [List.mem_filter, Bool.and_eq_true, decide_eq_true_eq] at hy
      simp only [Bool.not_eq_true', decide_eq_false_iff_not]
      intro hc
      have := live_unique_id hi hy.1 hx hc
      subst this
      exact hne hy.2.1.symm
    simp only [hj, hget]
    change ∃ t', (match eraseIf (fun y => y == x.handler)
        (s.expected w t.mainLoc x.addr (w.msgType x.handler) own) with
      | none => Except.error Fault.assertFailed
      | some l => _) = Except.ok t' ∧ _
    rw [herase2]
    refine ⟨_, rfl, rfl, ?_⟩
    constructor
    · simp [Spec.step, hi.made]
    · intro l hl'; rw [hlive] at hl'; exact hi.lt l hl'.1
    · exact hnd
    · exact hds
    · intro l hl'; rw [hlive] at hl'; exact hi.heap l hl'.1
    · intro b
      by_cases hb : b = x.addr
      · subst hb
        by_cases he : idsAt w t.mainLoc (s.step (.forget x.id)) x.addr = []
        · simp [he, optList]
        · simp [he, optList]
      · simp only
        rw [hidsother b hb, ← hi.infos b]
        split
        · rw [AMap.find_erase_ne _ hb]
        · rw [AMap.find_set_ne _ _ hb]
    · intro b ty
      by_cases hb : (b, ty) = (x.addr, w.msgType x.handler)
      · simp only [Prod.mk.injEq] at hb
        obtain ⟨rfl, rfl⟩ := hb
        have hnot := hother x.addr (w.msgType x.handler) (!own) (by simp)
        cases hown : own with
        | true =>
          rw [hown] at hnot
          simp only [Bool.not_true] at hnot
          simp only [hnot, own] at *
          simp only [hown, Joint.put, Joint.get, if_true, Bool.not_true, Bool.false_eq_true, if_false]
          unfold optJoint
          split
          · simp
          · simp
        | false =>
          rw [hown] at hnot
          simp only [Bool.not_false] at hnot
          simp only [hnot, own] at *
          simp only [hown, Joint.put, Joint.get, if_true, Bool.not_false, Bool.false_eq_true, if_false]
          unfold optJoint
          split
          · rename_i h; simp [h.1, h.2]
          · rename_i h; rw [AMap.find_set_self, if_neg (fun hc => h ⟨hc.2, hc.1⟩)]
      · have h1 := hother b ty true (by intro hc; apply hb; simp only [Prod.mk.injEq] at hc ⊢; exact ⟨hc.1, hc.2.1⟩)
        have h2 := hother b ty false (by intro hc; apply hb; simp only [Prod.mk.injEq] at hc ⊢; exact ⟨hc.1, hc.2.1⟩)
        simp only
        rw [h1, h2, ← hi.mine b ty]
        split
        · rw [AMap.find_erase_ne _ hb]
        · rw [AMap.find_set_ne _ _ hb]
  · simp only [hint, decide_false, Bool.false_eq_true, if_false]
    refine ⟨t, rfl, rfl, ?_⟩
    constructor
    · simp [Spec.step, hi.made]
    · intro l hl'; rw [hlive] at hl'; exact hi.lt l hl'.1
    · exact hnd
    · exact hds
    · intro l hl'; rw [hlive] at hl'; exact hi.heap l hl'.1
    · intro b
      rw [hi.infos b, idsAt_forget]
      unfold idsAt
      congr 2
      symm
      apply List.filter_eq_self.2
      intro y hy
      simp only [List.mem_filter, Bool.and_eq_true, decide_eq_true_eq] at hy
      simp only [Bool.not_eq_true', decide_eq_false_iff_not]
      intro hc
      have := live_unique_id hi hy.1 hx hc
      subst this; exact hint hy.2.2
    · intro b ty
      rw [hi.mine b ty, expected_forget, expected_forget]
      unfold Spec.expected
      congr 2 <;>
      · symm
        apply List.filter_eq_self.2
        intro y hy
        simp only [List.mem_filter, Bool.and_eq_true, decide_eq_true_eq] at hy
        simp only [Bool.not_eq_true', decide_eq_false_iff_not]
        intro hc
        have := live_unique_id hi hy.1 hx hc
        subst this; exact hint hy.2.1.2

theorem filter_map_congr {α β : Type} (L : List α) (f : α → α) (q q' : α → Bool) (g g' : α → β)
    (hq : ∀ x ∈ L, q (f x) = q' x) (hg : ∀ x ∈ L, q' x = true → g (f x) = g' x) :
    ((L.map f).filter q).map g = (L.filter q').map g' := by
  induction L with
  | nil => rfl
  | cons x r ih =>
    have ih := ih (fun y hy => hq y (by simp [hy])) (fun y hy => hg y (by simp [hy]))
    have h1 := hq x (by simp)
    have h2 := hg x (by simp)
    simp only [List.map_cons, List.filter_cons, h1]
    split
    · simp only [List.map_cons, ih, h2 (by assumption)]
    · exact ih

theorem inv_tag (w : World) (t : Table) (s : Spec) (id : InfoId) (h' : HandlerId)
    (hi : Inv w t s) (hl : s.legal w (.tag id h')) :
    ∃ t', t.update w id h' = .ok t' ∧ t'.mainLoc = t.mainLoc ∧ Inv w t' (s.step (.tag id h')) := by
  obtain ⟨x, hx, rfl, hty, hlc, huniq⟩ := hl
  have hheap := hi.heap x hx
  simp only [Table.update, hheap]
  let f : Live → Live := fun l => if l.id = x.id then { l with handler := h' } else l
  have hstep : (s.step (.tag x.id h')).live = s.live.map f := rfl
  have hfid : ∀ l, (f l).id = l.id := by intro l; simp only [f]; split <;> rfl
  have hfaddr : ∀ l, (f l).addr = l.addr := by intro l; simp only [f]; split <;> rfl
  have hfty : ∀ l ∈ s.live, w.msgType (f l).handler = w.msgType l.handler := by
    intro l hl; simp only [f]; split
    · rename_i h; rw [live_unique_id hi hl hx h]; exact hty
    · rfl
  have hfloc : ∀ l ∈ s.live, w.handlerLoc (f l).handler = w.handlerLoc l.handler := by
    intro l hl; simp only [f]; split
    · rename_i h; rw [live_unique_id hi hl hx h]; exact hlc
    · rfl
  have hidsAt : ∀ b, idsAt w t.mainLoc (s.step (.tag x.id h')) b = idsAt w t.mainLoc s b := by
    intro b
    unfold idsAt
    rw [hstep]
    apply filter_map_congr
    · intro l _; rw [hfaddr]
    · intro l _ _; exact hfid l
  have hexp : ∀ b ty own, (s.step (.tag x.id h')).expected w t.mainLoc b ty own =
      (s.live.filter (fun l => decide (l.addr = b) && decide (w.msgType l.handler = ty) &&
        decide (w.addrLoc l.addr = t.mainLoc) && (decide (w.handlerLoc l.handler = t.mainLoc) == own))).map
        (fun l => (f l).handler) := by
    intro b ty own
    unfold Spec.expected
    rw [hstep]
    apply filter_map_congr
    · intro l hl; rw [hfaddr, hfty l hl, hfloc l hl]
    · intro l _ _; rfl
  have hmem : ∀ l, l ∈ (s.step (.tag x.id h')).live ↔ ∃ y ∈ s.live, f y = l := by
    intro l; rw [hstep]; simp
  have hnd : (s.step (.tag x.id h')).live.Pairwise (fun l l' => l.id ≠ l'.id) := by
    rw [hstep, List.pairwise_map]
    apply hi.nodup.imp
    intro a b hab; rw [hfid, hfid]; exact hab
  have hds : (s.step (.tag x.id h')).live.Pairwise
      (fun l l' => ¬(l.addr = l'.addr ∧ l.handler = l'.handler)) := by
    rw [hstep, List.pairwise_map]
    have := List.Pairwise.and hi.nodup hi.distinct
    apply List.Pairwise.imp_of_mem ?_ this
    intro a b ha hb hab
    rw [hfaddr, hfaddr]
    simp only [f]
    split
    · rename_i hax
      have hbx : b.id ≠ x.id := fun hc => hab.1 (hax.trans hc.symm)
      have hax' := live_unique_id hi ha hx hax
      subst hax'
      simp only [hbx, if_false]
      intro hc
      exact huniq b hb hc.1.symm hbx hc.2.symm
    · rename_i hax
      split
      · rename_i hbx
        have hbx' := live_unique_id hi hb hx hbx
        subst hbx'
        intro hc
        exact huniq a ha hc.1 hax hc.2
      · exact hab.2
  have hnewheap : ∀ l ∈ (s.step (.tag x.id h')).live,
      (t.heap.set x.id ⟨h', x.addr, decide (w.addrLoc x.addr = t.mainLoc),
        decide (w.handlerLoc x.handler = t.mainLoc)⟩)[l.id]? =
      some ⟨l.handler, l.addr, decide (w.addrLoc l.addr = t.mainLoc), decide (w.handlerLoc l.handler = t.mainLoc)⟩ := by
    intro l hl
    obtain ⟨y, hy, rfl⟩ := (hmem l).1 hl
    rw [hfid, hfaddr, hfloc y hy]
    by_cases hyx : y.id = x.id
    · have := live_unique_id hi hy hx hyx
      subst this
      rw [List.getElem?_set_self (by rw [hi.made]; exact hi.lt y hy)]
      simp [f]
    · rw [List.getElem?_set_ne (fun hc => hyx hc.symm), hi.heap y hy]
      simp [f, hyx]
  by_cases hint : w.addrLoc x.addr = t.mainLoc
  · simp only [hint, decide_true, if_true]
    let own := decide (w.handlerLoc x.handler = t.mainLoc)
    have hmemx : x.handler ∈ s.expected w t.mainLoc x.addr (w.msgType x.handler) own := by
      simp only [Spec.expected, List.mem_map, List.mem_filter]
      exact ⟨x, ⟨hx, by simp [hint, own]⟩, rfl⟩
    have hj : t.mine.find (x.addr, w.msgType x.handler) =
        some ⟨s.expected w t.mainLoc x.addr (w.msgType x.handler) true,
              s.expected w t.mainLoc x.addr (w.msgType x.handler) false⟩ := by
      rw [hi.mine, optJoint, if_neg]
      intro hc
      cases hown : own with
      | true => rw [hown, hc.1] at hmemx; simp at hmemx
      | false => rw [hown, hc.2] at hmemx; simp at hmemx
    have hget : ∀ b, (Joint.mk (s.expected w t.mainLoc x.addr (w.msgType x.handler) true)
              (s.expected w t.mainLoc x.addr (w.msgType x.handler) false)).get b =
              s.expected w t.mainLoc x.addr (w.msgType x.handler) b := by
      intro b; cases b <;> simp [Joint.get]
    have hrep : replaceIf (fun y => y == x.handler) h'
        (s.expected w t.mainLoc x.addr (w.msgType x.handler) own) =
        some ((s.step (.tag x.id h')).expected w t.mainLoc x.addr (w.msgType x.handler) own) := by
      rw [hexp]
      unfold Spec.expected
      rw [replaceIf_map (g := fun l => decide (l.id = x.id))]
      · congr 1
        apply List.map_congr_left
        intro y _
        simp only [f, decide_eq_true_eq]
        split <;> simp
      · intro y hy
        simp only [List.mem_filter, Bool.and_eq_true, decide_eq_true_eq] at hy
        by_cases hyx : y.handler = x.handler
        · have := live_unique_handler hi hy.1 hx hy.2.1.1.1 hyx
          simp [this]
        · have : y.id ≠ x.id := fun hc => hyx (by rw [live_unique_id hi hy.1 hx hc])
          simp [hyx, this]
      · exact ⟨x, by simp [hx, hint, own], by simp⟩
      · exact pairwise_id hi _ _
    have hother : ∀ b ty b', (b, ty, b') ≠ (x.addr, w.msgType x.handler, own) →
        (s.step (.tag x.id h')).expected w t.mainLoc b ty b' = s.expected w t.mainLoc b ty b' := by
      intro b ty b' hne
      rw [hexp]
      unfold Spec.expected
      apply List.map_congr_left
      intro y hy
      simp only [List.mem_filter, Bool.and_eq_true, decide_eq_true_eq, beq_iff_eq] at hy
      simp only [f]
      split
      · rename_i hc
        have := live_unique_id hi hy.1 hx hc
        subst this
        exact absurd (by simp [own, hy.2.1.1.1, hy.2.1.1.2, hy.2.2]) hne
      · rfl
    simp only [hj, hget]
    change ∃ t', (match replaceIf (fun y => y == x.handler) h'
        (s.expected w t.mainLoc x.addr (w.msgType x.handler) own) with
      | none => Except.error Fault.assertFailed
      | some l => _) = Except.ok t' ∧ _
    rw [hrep]
    refine ⟨_, rfl, rfl, ?_⟩
    constructor
    · simp [Spec.step, hi.made]
    · intro l hl
      obtain ⟨y, hy, rfl⟩ := (hmem l).1 hl
      rw [hfid]; exact hi.lt y hy
    · exact hnd
    · exact hds
    · intro l hl
      have := hnewheap l hl
      simp only [hint, decide_true] at this
      exact this
    · intro b; simp only; rw [hidsAt, hi.infos]
    · intro b ty
      by_cases hb : (b, ty) = (x.addr, w.msgType x.handler)
      · simp only [Prod.mk.injEq] at hb
        obtain ⟨rfl, rfl⟩ := hb
        have hnot := hother x.addr (w.msgType x.handler) (!own) (by simp)
        have hne : (s.step (.tag x.id h')).expected w t.mainLoc x.addr (w.msgType x.handler) own ≠ [] := by
          rw [hexp]
          intro hc
          rw [List.map_eq_nil_iff] at hc
          have : x ∈ ([] : List Live) := by
            rw [← hc]; simp [hx, hint, own]
          simp at this
        cases hown : own with
        | true =>
          rw [hown] at hnot hne
          simp only [Bool.not_true] at hnot
          simp only [own] at hown
          simp only [hown, Joint.put, if_true, AMap.find_set_self, hnot]
          rw [optJoint, if_neg (fun hc => hne hc.1)]
        | false =>
          rw [hown] at hnot hne
          simp only [Bool.not_false] at hnot
          simp only [own] at hown
          simp only [hown, Joint.put, Bool.false_eq_true, if_false, AMap.find_set_self, hnot]
          rw [optJoint, if_neg (fun hc => hne hc.2)]
      · have h1 := hother b ty true (by intro hc; apply hb; simp only [Prod.mk.injEq] at hc ⊢; exact ⟨hc.1, hc.2.1⟩)
        have h2 := hother b ty false (by intro hc; apply hb; simp only [Prod.mk.injEq] at hc ⊢; exact ⟨hc.1, hc.2.1⟩)
        simp only
        rw [h1, h2, ← hi.mine b ty, AMap.find_set_ne _ _ hb]
  · simp only [hint, decide_false, Bool.false_eq_true, if_false]
    refine ⟨_, rfl, rfl, ?_⟩
    constructor
    · simp [Spec.step, hi.made]
    · intro l hl
      obtain ⟨y, hy, rfl⟩ := (hmem l).1 hl
      rw [hfid]; exact hi.lt y hy
    · exact hnd
    · exact hds
    · intro l hl
      have := hnewheap l hl
      simp only [hint, decide_false] at this
      exact this
    · intro b; simp only; rw [hidsAt, hi.infos]
    · intro b ty
      simp only
      rw [hexp, hexp, hi.mine]
      unfold Spec.expected
      congr 1 <;>
      · apply List.map_congr_left
        intro y hy
        simp only [List.mem_filter, Bool.and_eq_true, decide_eq_true_eq, beq_iff_eq] at hy
        simp only [f]
        split
        · rename_i hc
          have := live_unique_id hi hy.1 hx hc
          subst this
          exact absurd hy.2.1.2 hint
        · rfl

/-- every legal call keeps the refinement and never faults -/
theorem inv_step (w : World) (t : Table) (s : Spec) (op : Op) (hi : Inv w t s) (hl : s.legal w op) :
    ∃ t', t.step w op = .ok t' ∧ t'.mainLoc = t.mainLoc ∧ Inv w t' (s.step op) := by
  cases op with
  | subscribe h a =>
    refine ⟨_, rfl, ?_, inv_subscribe w t s h a hi hl⟩
    simp only [Table.materialize]; split <;> rfl
  | forget id => exact inv_forget w t s id hi hl
  | tag id h' => exact inv_tag w t s id h' hi hl

theorem inv_run (w : World) (ops : List Op) (t : Table) (s : Spec) (hi : Inv w t s)
    (hl : Spec.legalHistory w s ops) :
    ∃ t', t.run w ops = .ok t' ∧ t'.mainLoc = t.mainLoc ∧ Inv w t' (s.run ops) := by
  induction ops generalizing t s with
  | nil => exact ⟨t, rfl, rfl, hi⟩
  | cons op ops ih =>
    obtain ⟨t1, h1, h2, h3⟩ := inv_step w t s op hi hl.1
    obtain ⟨t2, h4, h5, h6⟩ := ih t1 _ h3 hl.2
    refine ⟨t2, ?_, h5.trans h2, h6⟩
    simp only [Table.run, h1, h4]

end Verif.Subscription
