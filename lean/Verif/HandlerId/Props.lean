import Verif.HandlerId.Model

/-!
# Property C63: unsubscribing a handler stops this handler and no other
-/

namespace Verif.HandlerId

/-! ## Specification -/

/-- the subscriptions the user wants: those made and not undone; `n`: the next handler object -/
def want (c : Cfg) (n : Nat) (w : List Info) : Op → List Info
  | .subAnon a b ty addr => w ++ [⟨⟨n, a, b, ty⟩, addr, .anon⟩]
  | .subActor a b ty addr => w ++ [⟨⟨n, a, b, ty⟩, addr, .plugin⟩]
  | .unsubObj h => w.filter (fun i => !decide (i.h = h ∧ i.addr = c.mainAddr h.actor))
  | .unsubName a b ty addr => w.filter (fun i => !decide (i.h.actor = a ∧ i.h.body = b ∧ i.h.ty = ty ∧ i.addr = addr))
  | .turn => w

/-- two handlers which the code cannot tell apart: methods of one class, or lambdas, for one type of messages -/
def Alike (b b' : Body) : Prop :=
  match b, b' with
  | .method c _, .method c' _ => c = c'
  | .lambda _, .lambda _ => True
  | _, _ => False

/-- nothing alike is subscribed by the actor to the address -/
def NoneAlike (s : State) (a : Nat) (b : Body) (ty addr : Nat) : Prop :=
  ∀ i ∈ s.table, ¬ (i.h.actor = a ∧ i.addr = addr ∧ i.h.ty = ty ∧ Alike i.h.body b)

/-- proper use: what is unsubscribed is subscribed, only supervisors use the method for it, and no two handlers that are
alike are subscribed at the same time -/
def Allowed (c : Cfg) (w : List Info) (s : State) : Op → Prop
  | .subAnon a b ty addr => NoneAlike s a b ty addr
  | .subActor a b ty addr => NoneAlike s a b ty addr
  | .unsubObj h => ∃ i ∈ w, i.h = h ∧ i.addr = c.mainAddr h.actor
  | .unsubName a b ty addr => c.supOf a = a ∧ ∃ i ∈ w, i.h.actor = a ∧ i.h.body = b ∧ i.h.ty = ty ∧ i.addr = addr
  | .turn => True

/-- all operations are proper -/
def Proper (c : Cfg) : List Info → State → List Op → Prop
  | _, _, [] => True
  | w, s, op :: ops => Allowed c w s op ∧ ∀ s1, step c s op = some s1 → Proper c (want c s.next w op) s1 ops

/-- the subscriptions the user wants in the end -/
def wanted (c : Cfg) : List Info → State → List Op → List Info
  | w, _, [] => w
  | w, s, op :: ops => match step c s op with
    | none => w
    | some s1 => wanted c (want c s.next w op) s1 ops

/-! ## Machinery -/

def key (i : Info) : Nat × Sig × Nat := (i.addr, i.h.sig, i.h.actor)

theorem samePoint_iff (i j : Info) : samePoint i j = true ↔ key i = key j := by
  simp [samePoint, sameHandler, key]

theorem sig_eq_iff (h h' : Handler) : h.sig = h'.sig ↔ (h.ty = h'.ty ∧ Alike h.body h'.body) := by
  obtain ⟨o, a, b, t⟩ := h
  obtain ⟨o', a', b', t'⟩ := h'
  cases b <;> cases b' <;> simp [Handler.sig, Alike, and_comm]

theorem find?_eraseP {α : Type} (f g : α → Bool) (l : List α) (h : ∀ x, f x = true → g x = false) :
    (l.eraseP f).find? g = l.find? g := by
  induction l with
  | nil => rfl
  | cons x l ih =>
    by_cases hf : f x = true
    · rw [List.eraseP_cons_of_pos hf, List.find?_cons_of_neg (by simp [h x hf])]
    · rw [List.eraseP_cons_of_neg hf]
      by_cases hg : g x = true
      · rw [List.find?_cons_of_pos hg, List.find?_cons_of_pos hg]
      · rw [List.find?_cons_of_neg hg, List.find?_cons_of_neg hg, ih]

theorem findLast_eraseLast (i p : Info) (l : List Info) (h : key i ≠ key p) :
    findLast i (eraseLast p l) = findLast i l := by
  simp only [findLast, eraseLast, List.reverse_reverse]
  apply find?_eraseP
  intro x hx
  rw [samePoint_iff] at hx
  cases hy : samePoint i x with
  | false => rfl
  | true => rw [samePoint_iff] at hy; exact absurd (hy.trans hx.symm) h

theorem findLast_append_ne (i p : Info) (l : List Info) (h : key i ≠ key p) : findLast i (l ++ [p]) = findLast i l := by
  simp only [findLast, List.reverse_append, List.reverse_cons, List.reverse_nil, List.nil_append, List.singleton_append]
  rw [List.find?_cons_of_neg]
  rw [samePoint_iff]; exact h

theorem findLast_append_eq (p : Info) (l : List Info) : findLast p (l ++ [p]) = some p := by
  simp only [findLast, List.reverse_append, List.reverse_cons, List.reverse_nil, List.nil_append, List.singleton_append]
  rw [List.find?_cons_of_pos]
  rw [samePoint_iff]

theorem findLast_congr {i j : Info} (h : key i = key j) (l : List Info) : findLast i l = findLast j l := by
  have : samePoint i = samePoint j := by
    funext x
    rw [Bool.eq_iff_iff, samePoint_iff, samePoint_iff, h]
  simp only [findLast, this]

theorem eraseLast_mem {p x : Info} {l : List Info} (h : x ∈ eraseLast p l) : x ∈ l := by
  simp only [eraseLast, List.mem_reverse] at h
  have := List.mem_of_mem_eraseP h
  simpa using this

theorem eraseP_congr' {α : Type} {f g : α → Bool} {l : List α} (h : ∀ x ∈ l, f x = g x) : l.eraseP f = l.eraseP g := by
  induction l with
  | nil => rfl
  | cons x l ih =>
    have hx := h x (by simp)
    have ih := ih (fun y hy => h y (by simp [hy]))
    by_cases hf : f x = true
    · rw [List.eraseP_cons_of_pos hf, List.eraseP_cons_of_pos (hx ▸ hf)]
    · rw [List.eraseP_cons_of_neg hf, List.eraseP_cons_of_neg (hx ▸ hf), ih]

theorem eraseLast_sublist (p : Info) (l : List Info) : (eraseLast p l).Sublist l := by
  have := (List.eraseP_sublist (p := samePoint p) (l := l.reverse)).reverse
  simpa [eraseLast] using this

theorem eraseP_key {p x : Info} {l : List Info} (hp : l.Pairwise (fun i j => key i ≠ key j))
    (h : x ∈ l.eraseP (samePoint p)) : key x ≠ key p := by
  induction l with
  | nil => simp at h
  | cons y l ih =>
    simp only [List.pairwise_cons] at hp
    by_cases hy : samePoint p y = true
    · rw [List.eraseP_cons_of_pos hy] at h
      rw [samePoint_iff] at hy
      rw [hy]
      exact fun he => hp.1 x h he.symm
    · rw [List.eraseP_cons_of_neg hy] at h
      simp only [List.mem_cons] at h
      rcases h with rfl | h
      · rw [samePoint_iff] at hy; exact fun he => hy he.symm
      · exact ih hp.2 h

theorem eraseLast_key {p x : Info} {l : List Info} (hp : l.Pairwise (fun i j => key i ≠ key j))
    (h : x ∈ eraseLast p l) : key x ≠ key p := by
  simp only [eraseLast, List.mem_reverse] at h
  refine eraseP_key ?_ h
  rw [List.pairwise_reverse]
  exact hp.imp (fun h he => h he.symm)

theorem findLast_mem {p x : Info} {l : List Info} (h : findLast p l = some x) : x ∈ l := by
  have := List.mem_of_find?_eq_some h
  simpa using this

theorem upd_same {α : Type} (f : Nat → α) (a : Nat) (v : α) : upd f a v a = v := by simp [upd]
theorem upd_other {α : Type} (f : Nat → α) {a b : Nat} (v : α) (h : b ≠ a) : upd f a v b = f b := by simp [upd, h]

structure Inv (s : State) : Prop where
  keys : s.table.Pairwise (fun i j => key i ≠ key j)
  objs : s.table.Pairwise (fun i j => i.h.obj ≠ j.h.obj)
  small : ∀ i ∈ s.table, i.h.obj < s.next
  smallM : ∀ i ∈ s.marked, i.h.obj < s.next
  pts : ∀ i ∈ s.table, findLast i (s.points i.h.actor) = some i
  owns : ∀ i ∈ s.table, i.tag = .plugin → findLast i (s.own i.h.actor) = some i
  ownT : ∀ a, ∀ i ∈ s.own a, i ∈ s.table ∧ i.tag = .plugin ∧ i.h.actor = a
  ownND : ∀ a, (s.own a).Pairwise (fun i j => key i ≠ key j)
  unsub1 : ∀ i, Msg.unsub i ∈ s.queue → i ∈ s.table ∧ i ∈ s.marked
  unsub2 : ∀ i ∈ s.table, i ∈ s.marked → Msg.unsub i ∈ s.queue
  unsubND : s.queue.Pairwise (fun m m' => ∀ i, m = .unsub i → m' ≠ .unsub i ∧ m' ≠ .sub i)
  sub1 : ∀ i, Msg.sub i ∈ s.queue → i ∈ s.table
  trk : ∀ a, ∀ i ∈ s.tracked a, i ∈ s.table ∧ Msg.sub i ∈ s.queue ∧ i.h.actor = a
  trkND : ∀ a, (s.tracked a).Nodup

theorem pw_inj {α β : Type} {f : α → β} {l : List α} (h : l.Pairwise (fun i j => f i ≠ f j)) {i j : α} (h1 : i ∈ l)
    (h2 : j ∈ l) (he : f i = f j) : i = j := by
  induction l with
  | nil => simp at h1
  | cons x l ih =>
    simp only [List.pairwise_cons] at h
    simp only [List.mem_cons] at h1 h2
    rcases h1 with rfl | h1 <;> rcases h2 with rfl | h2
    · rfl
    · exact absurd he (h.1 _ h2)
    · exact absurd he.symm (h.1 _ h1)
    · exact ih h.2 h1 h2

theorem eq_of_key {s : State} (hi : Inv s) {i j : Info} (h1 : i ∈ s.table) (h2 : j ∈ s.table) (h : key i = key j) : i = j :=
  pw_inj hi.keys h1 h2 h

theorem eq_of_obj {s : State} (hi : Inv s) {i j : Info} (h1 : i ∈ s.table) (h2 : j ∈ s.table) (h : i.h.obj = j.h.obj) : i = j :=
  pw_inj (f := fun i : Info => i.h.obj) hi.objs h1 h2 h

theorem inv_init : Inv State.init := by
  constructor <;> simp [State.init]

/-- a subscription that is not alike any other -/
theorem inv_subscribe {s : State} {i : Info} (hi : Inv s) (hobj : i.h.obj = s.next) (hk : ∀ j ∈ s.table, key j ≠ key i)
    (own' tracked' : Nat → List Info)
    (ho1 : ∀ j ∈ s.table ++ [i], j.tag = .plugin → findLast j (own' j.h.actor) = some j)
    (ho2 : ∀ a, ∀ j ∈ own' a, j ∈ s.table ++ [i] ∧ j.tag = .plugin ∧ j.h.actor = a)
    (ho3 : ∀ a, (own' a).Pairwise (fun i j => key i ≠ key j))
    (ht1 : ∀ a, ∀ j ∈ tracked' a, j ∈ s.table ++ [i] ∧ Msg.sub j ∈ s.queue ++ [Msg.sub i] ∧ j.h.actor = a)
    (ht2 : ∀ a, (tracked' a).Nodup) : Inv { subscribe i s with own := own', tracked := tracked' } := by
  have hnm : i ∉ s.table := fun h => hk i h rfl
  refine ⟨?_, ?_, ?_, ?_, ?_, ho1, ho2, ho3, ?_, ?_, ?_, ?_, ht1, ht2⟩
  · simp only [subscribe, List.pairwise_append]
    exact ⟨hi.keys, by simp, by intro a ha b hb; simp at hb; subst hb; exact hk a ha⟩
  · simp only [subscribe, List.pairwise_append]
    refine ⟨hi.objs, by simp, ?_⟩
    intro a ha b hb; simp at hb; subst hb
    have := hi.small a ha; omega
  · intro j hj
    simp only [subscribe, List.mem_append, List.mem_singleton] at hj ⊢
    rcases hj with hj | rfl
    · have := hi.small j hj; omega
    · omega
  · intro j hj; have := hi.smallM j hj; simp only [subscribe]; omega
  · intro j hj
    simp only [subscribe, List.mem_append, List.mem_singleton] at hj ⊢
    by_cases ha : j.h.actor = i.h.actor
    · rw [ha, upd_same]
      rcases hj with hj | rfl
      · rw [findLast_append_ne _ _ _ (hk j hj), ← ha]; exact hi.pts j hj
      · exact findLast_append_eq _ _
    · rw [upd_other _ _ ha]
      rcases hj with hj | rfl
      · exact hi.pts j hj
      · exact absurd rfl ha
  · intro j hj
    simp only [subscribe, List.mem_append, List.mem_singleton, reduceCtorEq, or_false] at hj ⊢
    have := hi.unsub1 j hj
    exact ⟨.inl this.1, this.2⟩
  · intro j hj hm
    simp only [subscribe, List.mem_append, List.mem_singleton] at hj ⊢
    rcases hj with hj | rfl
    · exact .inl (hi.unsub2 j hj hm)
    · have := hi.smallM j hm; omega
  · simp only [subscribe, List.pairwise_append]
    refine ⟨hi.unsubND, by simp, ?_⟩
    intro m hm m' hm' j hj
    simp at hm'; subst hm'; subst hj
    refine ⟨by simp, ?_⟩
    intro he
    simp only [Msg.sub.injEq] at he
    subst he
    exact hnm (hi.unsub1 _ hm).1
  · intro j hj
    simp only [subscribe, List.mem_append, List.mem_singleton, Msg.sub.injEq] at hj ⊢
    rcases hj with hj | rfl
    · exact .inl (hi.sub1 j hj)
    · exact .inr rfl

theorem noneAlike_key {s : State} {i : Info} (h : NoneAlike s i.h.actor i.h.body i.h.ty i.addr) : ∀ j ∈ s.table, key j ≠ key i := by
  intro j hj he
  simp only [key, Prod.mk.injEq, sig_eq_iff] at he
  exact h j hj ⟨he.2.2, he.1, he.2.1.1, he.2.1.2⟩

theorem inv_subAnon {s : State} {a ty addr : Nat} {b : Body} (hi : Inv s) (h : NoneAlike s a b ty addr) :
    Inv (subAnon a b ty addr s) := by
  refine inv_subscribe (i := ⟨⟨s.next, a, b, ty⟩, addr, .anon⟩) hi rfl (noneAlike_key h) s.own s.tracked ?_ ?_ hi.ownND ?_ hi.trkND
  · intro j hj ht
    simp only [List.mem_append, List.mem_singleton] at hj
    rcases hj with hj | rfl
    · exact hi.owns j hj ht
    · simp at ht
  · intro a j hj
    have := hi.ownT a j hj
    exact ⟨List.mem_append_left _ this.1, this.2⟩
  · intro a j hj
    have := hi.trk a j hj
    exact ⟨List.mem_append_left _ this.1, List.mem_append_left _ this.2.1, this.2.2⟩

theorem inv_subActor {s : State} {a ty addr : Nat} {b : Body} (hi : Inv s) (h : NoneAlike s a b ty addr) :
    ∃ s', subActor a b ty addr s = some s' ∧ Inv s' ∧
      s'.table = s.table ++ [⟨⟨s.next, a, b, ty⟩, addr, .plugin⟩] ∧ s'.marked = s.marked ∧ s'.next = s.next + 1 := by
  have hk := noneAlike_key (i := ⟨⟨s.next, a, b, ty⟩, addr, .plugin⟩) h
  have h0 : (s.tracked a).countP (fun j => samePoint j ⟨⟨s.next, a, b, ty⟩, addr, .plugin⟩) = 0 := by
    rw [List.countP_eq_zero]
    intro j hj
    rw [samePoint_iff]
    exact hk j (hi.trk a j hj).1
  refine ⟨{ subscribe ⟨⟨s.next, a, b, ty⟩, addr, .plugin⟩ s with
            tracked := upd s.tracked a (s.tracked a ++ [⟨⟨s.next, a, b, ty⟩, addr, .plugin⟩]),
            own := upd s.own a (s.own a ++ [⟨⟨s.next, a, b, ty⟩, addr, .plugin⟩]) },
    by simp only [subActor]; rw [if_pos h0]; rfl, ?_, rfl, rfl, rfl⟩
  refine inv_subscribe (i := ⟨⟨s.next, a, b, ty⟩, addr, .plugin⟩) hi rfl hk _ _ ?_ ?_ ?_ ?_ ?_
  · intro j hj ht
    simp only [List.mem_append, List.mem_singleton] at hj
    by_cases ha : j.h.actor = a
    · rw [ha, upd_same]
      rcases hj with hj | rfl
      · rw [findLast_append_ne _ _ _ (hk j hj), ← ha]; exact hi.owns j hj ht
      · exact findLast_append_eq _ _
    · rw [upd_other _ _ ha]
      rcases hj with hj | rfl
      · exact hi.owns j hj ht
      · exact absurd rfl ha
  · intro a' j hj
    by_cases ha : a' = a
    · subst ha
      rw [upd_same] at hj
      simp only [List.mem_append, List.mem_singleton] at hj ⊢
      rcases hj with hj | rfl
      · exact ⟨.inl (hi.ownT _ j hj).1, (hi.ownT _ j hj).2⟩
      · exact ⟨.inr rfl, rfl, rfl⟩
    · rw [upd_other _ _ ha] at hj
      exact ⟨List.mem_append_left _ (hi.ownT _ j hj).1, (hi.ownT _ j hj).2⟩
  · intro a'
    by_cases ha : a' = a
    · subst ha
      rw [upd_same, List.pairwise_append]
      refine ⟨hi.ownND _, by simp, ?_⟩
      intro x hx y hy
      simp only [List.mem_singleton] at hy
      subst hy
      exact hk x (hi.ownT _ x hx).1
    · rw [upd_other _ _ ha]; exact hi.ownND _
  · intro a' j hj
    by_cases ha : a' = a
    · subst ha
      rw [upd_same] at hj
      simp only [List.mem_append, List.mem_singleton] at hj ⊢
      rcases hj with hj | rfl
      · exact ⟨.inl (hi.trk _ j hj).1, .inl (hi.trk _ j hj).2.1, (hi.trk _ j hj).2.2⟩
      · exact ⟨.inr rfl, .inr rfl, rfl⟩
    · rw [upd_other _ _ ha] at hj
      exact ⟨List.mem_append_left _ (hi.trk _ j hj).1, List.mem_append_left _ (hi.trk _ j hj).2.1, (hi.trk _ j hj).2.2⟩
  · intro a'
    by_cases ha : a' = a
    · subst ha
      rw [upd_same]
      refine List.nodup_append.2 ⟨hi.trkND _, by simp, ?_⟩
      intro x hx y hy
      simp only [List.mem_singleton] at hy
      subst hy
      intro he
      subst he
      exact hk _ (hi.trk _ _ hx).1 rfl
    · rw [upd_other _ _ ha]; exact hi.trkND _

/-- a live subscription that is not yet being undone is undone -/
theorem inv_unsubInfo {s : State} {i : Info} (hi : Inv s) (ht : i ∈ s.table) (hm : i ∉ s.marked) :
    Inv (unsubInfo i s) ∧ (unsubInfo i s).table = s.table ∧ (unsubInfo i s).marked = i :: s.marked := by
  have hnq : Msg.unsub i ∉ s.queue := fun h => hm (hi.unsub1 i h).2
  simp only [unsubInfo, if_neg hm]
  refine ⟨⟨hi.keys, hi.objs, hi.small, ?_, hi.pts, hi.owns, hi.ownT, hi.ownND, ?_, ?_, ?_, ?_, ?_, hi.trkND⟩, trivial, trivial⟩
  · intro j hj
    simp only [List.mem_cons] at hj
    rcases hj with rfl | hj
    · exact hi.small _ ht
    · exact hi.smallM j hj
  · intro j hj
    simp only [List.mem_append, List.mem_singleton, Msg.unsub.injEq] at hj
    simp only [List.mem_cons]
    rcases hj with hj | rfl
    · exact ⟨(hi.unsub1 j hj).1, .inr (hi.unsub1 j hj).2⟩
    · exact ⟨ht, .inl rfl⟩
  · intro j hj hm'
    simp only [List.mem_append, List.mem_singleton, Msg.unsub.injEq]
    simp only [List.mem_cons] at hm'
    rcases hm' with rfl | hm'
    · exact .inr rfl
    · exact .inl (hi.unsub2 j hj hm')
  · simp only [List.pairwise_append]
    refine ⟨hi.unsubND, by simp, ?_⟩
    intro m hm1 m' hm' j hj
    simp only [List.mem_singleton] at hm'
    subst hm'; subst hj
    refine ⟨?_, by simp⟩
    intro he
    simp only [Msg.unsub.injEq] at he
    subst he
    exact hnq hm1
  · intro j hj
    simp only [List.mem_append, List.mem_singleton, reduceCtorEq, or_false] at hj
    exact hi.sub1 j hj
  · intro a j hj
    have := hi.trk a j hj
    exact ⟨this.1, List.mem_append_left _ this.2.1, this.2.2⟩

theorem inv_next {s : State} (hi : Inv s) : Inv { s with next := s.next + 1 } :=
  ⟨hi.keys, hi.objs, fun i h => Nat.lt_succ_of_lt (hi.small i h), fun i h => Nat.lt_succ_of_lt (hi.smallM i h), hi.pts, hi.owns,
   hi.ownT, hi.ownND, hi.unsub1, hi.unsub2, hi.unsubND, hi.sub1, hi.trk, hi.trkND⟩

theorem forget_table {s : State} (hi : Inv s) {i : Info} (ht : i ∈ s.table) (j : Info) :
    j ∈ (forget i s).table ↔ j ∈ s.table ∧ j ≠ i := by
  simp only [forget, List.mem_filter, Bool.not_eq_true', Bool.and_eq_false_iff, decide_eq_false_iff_not]
  constructor
  · rintro ⟨h1, h2⟩
    refine ⟨h1, ?_⟩
    rintro rfl
    simp at h2
  · rintro ⟨h1, h2⟩
    exact ⟨h1, .inr (fun he => h2 (eq_of_obj hi h1 ht he))⟩

/-- the unsubscription of the head of the queue is done -/
theorem inv_handle_unsub {s : State} {p : Info} {q : List Msg} (hi : Inv s) (hq : s.queue = .unsub p :: q) :
    ∃ s', handle (.unsub p) { s with queue := q } = some s' ∧ Inv s' ∧ s'.table = s.table.filter (fun j => !decide (j = p)) ∧
      s'.marked = s.marked ∧ s'.next = s.next ∧ s'.queue = q := by
  have hun := hi.unsub1 p (by rw [hq]; simp)
  have hnd := hi.unsubND
  rw [hq] at hnd
  simp only [List.pairwise_cons] at hnd
  have hpq : Msg.unsub p ∉ q := fun h => (hnd.1 _ h p rfl).1 rfl
  have hps : Msg.sub p ∉ q := fun h => (hnd.1 _ h p rfl).2 rfl
  have hptrk : ∀ a, p ∉ s.tracked a := by
    intro a h
    have := (hi.trk a p h).2.1
    rw [hq] at this
    simp only [List.mem_cons, reduceCtorEq, false_or] at this
    exact hps this
  have hft : s.table.filter (fun j => !(decide (j.addr = p.addr) && decide (j.h.obj = p.h.obj))) =
      s.table.filter (fun j => !decide (j = p)) := by
    apply List.filter_congr
    intro j hj
    rw [Bool.eq_iff_iff]
    simp only [Bool.not_eq_true', Bool.and_eq_false_iff, decide_eq_false_iff_not]
    constructor
    · rintro h rfl; simp at h
    · intro h; exact .inr (fun he => h (eq_of_obj hi hj hun.1 he))
  have hmem : ∀ j, j ∈ s.table.filter (fun j => !decide (j = p)) ↔ j ∈ s.table ∧ j ≠ p := by simp
  have common : ∀ (pts own' : Nat → List Info),
      (∀ i ∈ s.table, i ≠ p → findLast i (pts i.h.actor) = some i) →
      (∀ i ∈ s.table, i ≠ p → i.tag = .plugin → findLast i (own' i.h.actor) = some i) →
      (∀ a, ∀ i ∈ own' a, (i ∈ s.table ∧ i ≠ p) ∧ i.tag = .plugin ∧ i.h.actor = a) →
      (∀ a, (own' a).Pairwise (fun i j => key i ≠ key j)) →
      Inv { s with queue := q, points := pts, own := own', table := s.table.filter (fun j => !decide (j = p)) } := by
    intro pts own' h1 h2 h3 h4
    refine ⟨hi.keys.filter _, hi.objs.filter _, ?_, hi.smallM, ?_, ?_, ?_, h4, ?_, ?_, hnd.2, ?_, ?_, hi.trkND⟩
    · intro j hj; exact hi.small j ((hmem j).1 hj).1
    · intro j hj; exact h1 j ((hmem j).1 hj).1 ((hmem j).1 hj).2
    · intro j hj; exact h2 j ((hmem j).1 hj).1 ((hmem j).1 hj).2
    · intro a j hj; exact ⟨(hmem j).2 (h3 a j hj).1, (h3 a j hj).2⟩
    · intro j hj
      have := hi.unsub1 j (by rw [hq]; exact List.mem_cons_of_mem _ hj)
      refine ⟨(hmem j).2 ⟨this.1, ?_⟩, this.2⟩
      rintro rfl; exact hpq hj
    · intro j hj hm
      have := hi.unsub2 j ((hmem j).1 hj).1 hm
      rw [hq] at this
      simp only [List.mem_cons, Msg.unsub.injEq] at this
      exact this.resolve_left ((hmem j).1 hj).2
    · intro j hj
      refine (hmem j).2 ⟨hi.sub1 j (by rw [hq]; exact List.mem_cons_of_mem _ hj), ?_⟩
      rintro rfl; exact hps hj
    · intro a j hj
      have := hi.trk a j hj
      rw [hq] at this
      simp only [List.mem_cons, reduceCtorEq, false_or] at this
      refine ⟨(hmem j).2 ⟨this.1, ?_⟩, this.2⟩
      rintro rfl; exact hptrk a hj
  have hkey : ∀ i ∈ s.table, i ≠ p → key i ≠ key p := fun i h1 h2 he => h2 (eq_of_key hi h1 hun.1 he)
  cases htag : p.tag with
  | plugin =>
    have hf := hi.owns p hun.1 htag
    refine ⟨{ s with
              queue := q, own := upd s.own p.h.actor (eraseLast p (s.own p.h.actor)),
              table := s.table.filter (fun j => !decide (j = p)) },
      by simp only [handle, hf, forget, hft], ?_, rfl, rfl, rfl, rfl⟩
    apply common
    · intro i h1 _; exact hi.pts i h1
    · intro i h1 h2 h3
      by_cases ha : i.h.actor = p.h.actor
      · rw [ha, upd_same, findLast_eraseLast _ _ _ (hkey i h1 h2), ← ha]; exact hi.owns i h1 h3
      · rw [upd_other _ _ ha]; exact hi.owns i h1 h3
    · intro a i h
      by_cases ha : a = p.h.actor
      · subst ha
        rw [upd_same] at h
        have hm := hi.ownT _ i (eraseLast_mem h)
        refine ⟨⟨hm.1, ?_⟩, hm.2⟩
        rintro rfl
        exact eraseLast_key (hi.ownND _) h rfl
      · rw [upd_other _ _ ha] at h
        have hm := hi.ownT _ i h
        refine ⟨⟨hm.1, ?_⟩, hm.2⟩
        rintro rfl
        exact ha hm.2.2.symm
    · intro a
      by_cases ha : a = p.h.actor
      · subst ha
        rw [upd_same]
        exact (hi.ownND _).sublist (eraseLast_sublist _ _)
      · rw [upd_other _ _ ha]; exact hi.ownND _
  | anon =>
    have hf := hi.pts p hun.1
    have hno : findLast p (s.own p.h.actor) = none := by
      simp only [findLast, List.find?_eq_none, List.mem_reverse]
      intro x hx hs
      rw [samePoint_iff] at hs
      have hm := hi.ownT _ x hx
      have := eq_of_key hi hun.1 hm.1 hs
      subst this
      rw [htag] at hm; simp at hm
    refine ⟨{ s with
              queue := q, points := upd s.points p.h.actor (eraseLast p (s.points p.h.actor)),
              table := s.table.filter (fun j => !decide (j = p)) },
      by simp only [handle, hno, htag, hf, forget, hft], ?_, rfl, rfl, rfl, rfl⟩
    apply common
    · intro i h1 h2
      by_cases ha : i.h.actor = p.h.actor
      · rw [ha, upd_same, findLast_eraseLast _ _ _ (hkey i h1 h2), ← ha]; exact hi.pts i h1
      · rw [upd_other _ _ ha]; exact hi.pts i h1
    · intro i h1 _ h3; exact hi.owns i h1 h3
    · intro a i h
      have hm := hi.ownT _ i h
      refine ⟨⟨hm.1, ?_⟩, hm.2⟩
      rintro rfl; rw [htag] at hm; simp at hm
    · exact hi.ownND

/-- the starter takes notice of a subscription -/
theorem inv_handle_sub {s : State} {p : Info} {q : List Msg} (hi : Inv s) (hq : s.queue = .sub p :: q) :
    ∃ s', handle (.sub p) { s with queue := q } = some s' ∧ Inv s' ∧ s'.table = s.table ∧
      s'.marked = s.marked ∧ s'.next = s.next ∧ s'.queue = q := by
  have hpt := hi.sub1 p (by rw [hq]; simp)
  have hnd := hi.unsubND
  rw [hq] at hnd
  simp only [List.pairwise_cons] at hnd
  refine ⟨{ s with
            queue := q,
            tracked := upd s.tracked p.h.actor ((s.tracked p.h.actor).eraseP (fun j => samePoint j p)) },
    rfl, ⟨hi.keys, hi.objs, hi.small, hi.smallM, hi.pts, hi.owns, hi.ownT, hi.ownND, ?_, ?_, hnd.2, ?_, ?_, ?_⟩, rfl, rfl, rfl, rfl⟩
  · intro i h; exact hi.unsub1 i (by rw [hq]; exact List.mem_cons_of_mem _ h)
  · intro i h1 h2
    have := hi.unsub2 i h1 h2
    rw [hq] at this
    simpa using this
  · intro i h; exact hi.sub1 i (by rw [hq]; exact List.mem_cons_of_mem _ h)
  · intro a i h
    have base : i ∈ s.tracked a ∧ i ≠ p := by
      by_cases ha : a = p.h.actor
      · subst ha
        simp only [upd_same] at h
        refine ⟨List.mem_of_mem_eraseP h, ?_⟩
        rintro rfl
        have he : (s.tracked i.h.actor).eraseP (fun j => samePoint j i) = (s.tracked i.h.actor).erase i := by
          rw [List.erase_eq_eraseP]
          apply eraseP_congr'
          intro x hx
          rw [Bool.eq_iff_iff, samePoint_iff]
          simp only [beq_iff_eq]
          exact ⟨fun hk => (eq_of_key hi (hi.trk _ x hx).1 hpt hk).symm, fun hk => by rw [hk]⟩
        rw [he] at h
        exact List.Nodup.not_mem_erase (hi.trkND _) h
      · simp only [upd_other _ _ ha] at h
        refine ⟨h, ?_⟩
        rintro rfl
        exact ha (hi.trk _ _ h).2.2.symm
    have := hi.trk a i base.1
    rw [hq] at this
    simp only [List.mem_cons, Msg.sub.injEq] at this
    exact ⟨this.1, this.2.1.resolve_left base.2, this.2.2⟩
  · intro a
    by_cases ha : a = p.h.actor
    · subst ha
      simp only [upd_same]
      exact (hi.trkND _).sublist List.eraseP_sublist
    · simp only [upd_other _ _ ha]; exact hi.trkND _

/-- the subscriptions that are not being undone -/
def live (s : State) : List Info := s.table.filter (fun i => !decide (i ∈ s.marked))

theorem mem_live {s : State} {i : Info} : i ∈ live s ↔ i ∈ s.table ∧ i ∉ s.marked := by simp [live]

theorem live_unsub {s : State} {i : Info} {f : Info → Bool} (hm : i ∉ s.marked)
    (hf : ∀ j ∈ live s, f j = !decide (j = i)) : live (unsubInfo i s) = (live s).filter f := by
  have h1 : (live s).filter f = (live s).filter (fun j => !decide (j = i)) := List.filter_congr hf
  rw [h1]
  simp only [live, unsubInfo, if_neg hm, List.filter_filter]
  apply List.filter_congr
  intro j _
  rw [Bool.eq_iff_iff]
  simp

theorem live_append {s s' : State} {i : Info} (hi : Inv s) (hobj : i.h.obj = s.next) (ht : s'.table = s.table ++ [i])
    (hm : s'.marked = s.marked) : live s' = live s ++ [i] := by
  have : i ∉ s.marked := fun h => by have := hi.smallM i h; omega
  simp only [live, ht, hm, List.filter_append]
  simp [this]

/-- one operation -/
theorem step_ok (c : Cfg) {s : State} (op : Op) (hi : Inv s) (ha : Allowed c (live s) s op) :
    ∃ s', step c s op = some s' ∧ Inv s' ∧ live s' = want c s.next (live s) op := by
  cases op with
  | subAnon a b ty addr => exact ⟨_, rfl, inv_subAnon hi ha, live_append hi rfl rfl rfl⟩
  | subActor a b ty addr =>
    obtain ⟨s', h1, h2, h3, h4, _⟩ := inv_subActor hi ha
    exact ⟨s', h1, h2, live_append hi rfl h3 h4⟩
  | unsubObj h =>
    obtain ⟨i, hw, he, hadr⟩ := ha
    obtain ⟨ht, hm⟩ := mem_live.1 hw
    have hf : findLast ⟨h, c.mainAddr h.actor, .anon⟩ (s.points h.actor) = some i := by
      have hk : key ⟨h, c.mainAddr h.actor, .anon⟩ = key i := by simp [key, he, hadr]
      rw [findLast_congr hk, ← he]; exact hi.pts i ht
    have hu := inv_unsubInfo hi ht hm
    refine ⟨unsubInfo i s, by simp only [step, unsubObj, unsubPoint, hf], hu.1, ?_⟩
    apply live_unsub hm
    intro j hj
    congr 1
    rw [decide_eq_decide]
    constructor
    · rintro ⟨h1, _⟩; exact eq_of_obj hi (mem_live.1 hj).1 ht (by rw [h1, he])
    · rintro rfl; exact ⟨he, hadr⟩
  | unsubName a b ty addr =>
    obtain ⟨hsup, i, hw, h1, h2, h3, h4⟩ := ha
    obtain ⟨ht, hm⟩ := mem_live.1 hw
    have hkey : ∀ j : Info, (j.h.actor = a ∧ j.h.body = b ∧ j.h.ty = ty ∧ j.addr = addr) → key j = key i := by
      rintro j ⟨k1, k2, k3, k4⟩
      simp [key, Handler.sig, k1, k2, k3, k4, h1, h2, h3, h4]
    have hf : findLast ⟨⟨s.next, a, b, ty⟩, addr, .anon⟩ (s.points (c.supOf a)) = some i := by
      rw [findLast_congr (hkey _ ⟨rfl, rfl, rfl, rfl⟩), hsup, ← h1]; exact hi.pts i ht
    have hu := inv_unsubInfo hi ht hm
    refine ⟨{ unsubInfo i s with next := (unsubInfo i s).next + 1 }, by simp only [step, unsubName, unsubPoint, hf, Option.map],
      inv_next hu.1, ?_⟩
    have : live { unsubInfo i s with next := (unsubInfo i s).next + 1 } = live (unsubInfo i s) := rfl
    rw [this]
    apply live_unsub hm
    intro j hj
    congr 1
    rw [decide_eq_decide]
    constructor
    · intro hk; exact eq_of_key hi (mem_live.1 hj).1 ht (hkey j hk)
    · rintro rfl; exact ⟨h1, h2, h3, h4⟩
  | turn =>
    cases hq : s.queue with
    | nil => exact ⟨s, by simp only [step, hq], hi, rfl⟩
    | cons m q =>
      cases m with
      | sub p =>
        obtain ⟨s', h1, h2, h3, h4, _⟩ := inv_handle_sub hi hq
        exact ⟨s', by simp only [step, hq]; exact h1, h2, by simp only [live, h3, h4]; rfl⟩
      | unsub p =>
        obtain ⟨s', h1, h2, h3, h4, _⟩ := inv_handle_unsub hi hq
        refine ⟨s', by simp only [step, hq]; exact h1, h2, ?_⟩
        have hun := hi.unsub1 p (by rw [hq]; simp)
        simp only [live, h3, h4, List.filter_filter, want]
        apply List.filter_congr
        intro j _
        rw [Bool.eq_iff_iff]
        simp only [Bool.and_eq_true, Bool.not_eq_true', decide_eq_false_iff_not]
        constructor
        · exact fun h => h.1
        · exact fun h => ⟨h, fun he => h (he ▸ hun.2)⟩

theorem run_ok (c : Cfg) (ops : List Op) : ∀ {s : State}, Inv s → Proper c (live s) s ops →
    ∃ s', run c s ops = some s' ∧ Inv s' ∧ live s' = wanted c (live s) s ops := by
  induction ops with
  | nil => intro s hi _; exact ⟨s, rfl, hi, rfl⟩
  | cons op ops ih =>
    intro s hi hp
    obtain ⟨s1, h1, h2, h3⟩ := step_ok c op hi hp.1
    have hp2 := hp.2 s1 h1
    rw [← h3] at hp2
    obtain ⟨s', k1, k2, k3⟩ := ih h2 hp2
    refine ⟨s', by simp only [run, h1]; exact k1, k2, ?_⟩
    rw [k3, h3]
    simp only [wanted, h1]

theorem live_queue {s : State} (hi : Inv s) : live s = s.table.filter (fun i => !decide (Msg.unsub i ∈ s.queue)) := by
  apply List.filter_congr
  intro i h
  congr 1
  rw [decide_eq_decide]
  exact ⟨hi.unsub2 i h, fun hh => (hi.unsub1 i hh).2⟩

/-! ## Theorems -/

/-- What the user is entitled to: as long as no two handlers that are alike are subscribed at the same time, and only
supervisors unsubscribe by the method, no assertion fails, and the subscriptions which are there, except those whose
removal is still in the queue, are exactly those that were made and not undone -/
theorem C63_exact_partial (c : Cfg) (ops : List Op) (h : Proper c [] State.init ops) :
    ∃ s, run c State.init ops = some s ∧
      s.table.filter (fun i => !decide (Msg.unsub i ∈ s.queue)) = wanted c [] State.init ops := by
  obtain ⟨s, h1, h2, h3⟩ := run_ok c ops inv_init h
  exact ⟨s, h1, by rw [← live_queue h2, h3]; rfl⟩

/-- ... so when the queue is empty, exactly those are there -/
theorem C63_exact_rest_partial (c : Cfg) (ops : List Op) (h : Proper c [] State.init ops) (s : State)
    (hr : run c State.init ops = some s) (hq : s.queue = []) : s.table = wanted c [] State.init ops := by
  obtain ⟨s', h1, h2⟩ := C63_exact_partial c ops h
  rw [hr] at h1
  cases h1
  rw [← h2, hq]
  exact (List.filter_eq_self.2 (by simp)).symm

/-! ### Without restrictions -/

/-- invariants of all runs -/
structure Inv0 (s : State) : Prop where
  small : ∀ i ∈ s.table, i.h.obj < s.next
  pSmall : ∀ a, ∀ i ∈ s.points a, i.h.obj < s.next ∧ i.h.actor = a ∧ ∀ j ∈ s.table, j.h.obj = i.h.obj → j = i
  oSmall : ∀ a, ∀ i ∈ s.own a, i.h.obj < s.next ∧ ∀ j ∈ s.table, j.h.obj = i.h.obj → j = i
  mSmall : ∀ i ∈ s.marked, i.h.obj < s.next

theorem inv0_init : Inv0 State.init := by constructor <;> simp [State.init]

theorem inv0_subscribe {s : State} {i : Info} (hi : Inv0 s) (hobj : i.h.obj = s.next) :
    Inv0 (subscribe i s) ∧ ∀ tracked',
      Inv0 { subscribe i s with tracked := tracked', own := upd s.own i.h.actor (s.own i.h.actor ++ [i]) } := by
  have h1 : ∀ j ∈ s.table ++ [i], j.h.obj < s.next + 1 := by
    intro j hj
    simp only [List.mem_append, List.mem_singleton] at hj
    rcases hj with hj | rfl
    · exact Nat.lt_succ_of_lt (hi.small j hj)
    · omega
  have h2 : ∀ j ∈ s.table ++ [i], j.h.obj = i.h.obj → j = i := by
    intro j hj he
    simp only [List.mem_append, List.mem_singleton] at hj
    rcases hj with hj | rfl
    · have := hi.small j hj; omega
    · rfl
  have h3 : ∀ x : Info, x.h.obj < s.next → (∀ j ∈ s.table, j.h.obj = x.h.obj → j = x) →
      ∀ j ∈ s.table ++ [i], j.h.obj = x.h.obj → j = x := by
    intro x hx hh j hj he
    simp only [List.mem_append, List.mem_singleton] at hj
    rcases hj with hj | rfl
    · exact hh j hj he
    · omega
  have h4 : ∀ a, ∀ x ∈ upd s.points i.h.actor (s.points i.h.actor ++ [i]) a,
      x.h.obj < s.next + 1 ∧ x.h.actor = a ∧ ∀ j ∈ s.table ++ [i], j.h.obj = x.h.obj → j = x := by
    intro a x hx
    by_cases ha : a = i.h.actor
    · subst ha
      rw [upd_same] at hx
      simp only [List.mem_append, List.mem_singleton] at hx
      rcases hx with hx | rfl
      · have := hi.pSmall _ x hx
        exact ⟨by omega, this.2.1, h3 x this.1 this.2.2⟩
      · exact ⟨by omega, rfl, h2⟩
    · rw [upd_other _ _ ha] at hx
      have := hi.pSmall _ x hx
      exact ⟨by omega, this.2.1, h3 x this.1 this.2.2⟩
  have h5 : ∀ a, ∀ x ∈ s.own a, x.h.obj < s.next + 1 ∧ ∀ j ∈ s.table ++ [i], j.h.obj = x.h.obj → j = x := by
    intro a x hx
    have := hi.oSmall _ x hx
    exact ⟨by omega, h3 x this.1 this.2⟩
  have h6 : ∀ x ∈ s.marked, x.h.obj < s.next + 1 := fun x hx => Nat.lt_succ_of_lt (hi.mSmall x hx)
  refine ⟨⟨h1, h4, h5, h6⟩, fun _ => ⟨h1, h4, ?_, h6⟩⟩
  intro a x hx
  by_cases ha : a = i.h.actor
  · subst ha
    simp only [upd_same, List.mem_append, List.mem_singleton] at hx
    rcases hx with hx | rfl
    · exact h5 _ x hx
    · exact ⟨by simp only [subscribe]; omega, h2⟩
  · simp only [upd_other _ _ ha] at hx
    exact h5 _ x hx

theorem inv0_unsubInfo {s : State} (i : Info) (hi : Inv0 s) (hs : i.h.obj < s.next) : Inv0 (unsubInfo i s) := by
  simp only [unsubInfo]
  split
  · exact hi
  · refine ⟨hi.small, hi.pSmall, hi.oSmall, ?_⟩
    intro j hj
    simp only [List.mem_cons] at hj
    rcases hj with rfl | hj
    · exact hs
    · exact hi.mSmall j hj

theorem inv0_forget {s : State} (i : Info) (hi : Inv0 s) : Inv0 (forget i s) := by
  refine ⟨?_, ?_, ?_, hi.mSmall⟩
  · intro j hj; exact hi.small j (List.mem_filter.1 hj).1
  · intro a x hx
    have := hi.pSmall a x hx
    exact ⟨this.1, this.2.1, fun j hj => this.2.2 j (List.mem_filter.1 hj).1⟩
  · intro a x hx
    have := hi.oSmall a x hx
    exact ⟨this.1, fun j hj => this.2 j (List.mem_filter.1 hj).1⟩

theorem unsubPoint_some {life addr : Nat} {h : Handler} {s s' : State} (he : unsubPoint life h addr s = some s') :
    ∃ i ∈ s.points life, key i = key ⟨h, addr, .anon⟩ ∧ s' = unsubInfo i s := by
  simp only [unsubPoint] at he
  cases hf : findLast ⟨h, addr, .anon⟩ (s.points life) with
  | none => rw [hf] at he; simp at he
  | some i =>
    rw [hf] at he
    simp only [Option.some.injEq] at he
    refine ⟨i, findLast_mem hf, ?_, he.symm⟩
    have := List.find?_some hf
    rw [samePoint_iff] at this
    exact this.symm

theorem inv0_handle {s s' : State} {m : Msg} (hi : Inv0 s) (h : handle m s = some s') : Inv0 s' := by
  cases m with
  | sub p => simp only [handle, Option.some.injEq] at h; subst h; exact ⟨hi.small, hi.pSmall, hi.oSmall, hi.mSmall⟩
  | unsub p =>
    simp only [handle] at h
    cases hf : findLast p (s.own p.h.actor) with
    | some i =>
      rw [hf] at h
      simp only [Option.some.injEq] at h
      subst h
      have hg := inv0_forget i hi
      refine ⟨hg.small, hg.pSmall, ?_, hg.mSmall⟩
      intro a x hx
      by_cases ha : a = p.h.actor
      · subst ha
        simp only [upd_same] at hx
        exact hg.oSmall _ x (eraseLast_mem hx)
      · simp only [upd_other _ _ ha] at hx
        exact hg.oSmall _ x hx
    | none =>
      rw [hf] at h
      cases htag : p.tag with
      | plugin => rw [htag] at h; simp only [Option.some.injEq] at h; subst h; exact hi
      | anon =>
        rw [htag] at h
        cases hf2 : findLast p (s.points p.h.actor) with
        | none => rw [hf2] at h; simp at h
        | some i =>
          rw [hf2] at h
          simp only [Option.some.injEq] at h
          subst h
          have hg := inv0_forget i hi
          refine ⟨hg.small, ?_, hg.oSmall, hg.mSmall⟩
          intro a x hx
          by_cases ha : a = p.h.actor
          · subst ha
            simp only [upd_same] at hx
            exact hg.pSmall _ x (eraseLast_mem hx)
          · simp only [upd_other _ _ ha] at hx
            exact hg.pSmall _ x hx

theorem inv0_next {s : State} (hi : Inv0 s) : Inv0 { s with next := s.next + 1 } :=
  ⟨fun i h => Nat.lt_succ_of_lt (hi.small i h),
   fun a i h => ⟨Nat.lt_succ_of_lt (hi.pSmall a i h).1, (hi.pSmall a i h).2⟩,
   fun a i h => ⟨Nat.lt_succ_of_lt (hi.oSmall a i h).1, (hi.oSmall a i h).2⟩,
   fun i h => Nat.lt_succ_of_lt (hi.mSmall i h)⟩

theorem inv0_step {c : Cfg} {s s' : State} {op : Op} (hi : Inv0 s) (h : step c s op = some s') : Inv0 s' := by
  cases op with
  | subAnon a b ty addr =>
    simp only [step, Option.some.injEq] at h
    subst h
    exact (inv0_subscribe hi rfl).1
  | subActor a b ty addr =>
    simp only [step, subActor] at h
    split at h
    · simp only [Option.some.injEq] at h
      subst h
      exact (inv0_subscribe (i := ⟨⟨s.next, a, b, ty⟩, addr, .plugin⟩) hi rfl).2 _
    · simp at h
  | unsubObj g =>
    obtain ⟨i, hm, _, rfl⟩ := unsubPoint_some h
    exact inv0_unsubInfo i hi (hi.pSmall _ i hm).1
  | unsubName a b ty addr =>
    simp only [step, unsubName, Option.map_eq_some_iff] at h
    obtain ⟨s1, h1, rfl⟩ := h
    obtain ⟨i, hm, _, rfl⟩ := unsubPoint_some h1
    exact inv0_next (inv0_unsubInfo i hi (hi.pSmall _ i hm).1)
  | turn =>
    simp only [step] at h
    split at h
    · simp only [Option.some.injEq] at h; subst h; exact hi
    · rename_i m q _
      exact inv0_handle (s := { s with queue := q }) ⟨hi.small, hi.pSmall, hi.oSmall, hi.mSmall⟩ h

theorem inv0_run {c : Cfg} (ops : List Op) : ∀ {s s' : State}, Inv0 s → run c s ops = some s' → Inv0 s' := by
  induction ops with
  | nil => intro s s' hi h; simp only [run, Option.some.injEq] at h; subst h; exact hi
  | cons op ops ih =>
    intro s s' hi h
    simp only [run] at h
    split at h
    · simp at h
    · exact ih (inv0_step hi (by assumption)) h

/-- the operation unsubscribes a handler of the actor `a` for messages `ty` from the address that is alike `b` -/
def Hits (c : Cfg) (i : Info) : Op → Prop
  | .unsubObj h => h.actor = i.h.actor ∧ c.mainAddr h.actor = i.addr ∧ h.ty = i.h.ty ∧ Alike h.body i.h.body
  | .unsubName a b ty addr => a = i.h.actor ∧ addr = i.addr ∧ ty = i.h.ty ∧ Alike b i.h.body
  | _ => False

/-- the subscription is there, and nothing alike is about to be unsubscribed -/
def Calm (i : Info) (s : State) : Prop := i ∈ s.table ∧ ∀ p, Msg.unsub p ∈ s.queue → key p ≠ key i

theorem calm_unsubInfo {i x : Info} {s : State} (h : Calm i s) (hx : key x ≠ key i) : Calm i (unsubInfo x s) := by
  simp only [unsubInfo]
  split
  · exact h
  · refine ⟨h.1, ?_⟩
    intro p hp
    simp only [List.mem_append, List.mem_singleton, Msg.unsub.injEq] at hp
    rcases hp with hp | rfl
    · exact h.2 p hp
    · exact hx

theorem calm_forget {i x : Info} {s : State} (h : i ∈ s.table) (hx : key x ≠ key i)
    (hu : ∀ j ∈ s.table, j.h.obj = x.h.obj → j = x) : i ∈ (forget x s).table := by
  simp only [forget, List.mem_filter, Bool.not_eq_true', Bool.and_eq_false_iff, decide_eq_false_iff_not]
  refine ⟨h, .inr ?_⟩
  intro he
  exact hx (by rw [hu i h he])

theorem calm_step {c : Cfg} {s s' : State} {op : Op} {i : Info} (hi : Inv0 s) (hc : Calm i s) (hn : ¬ Hits c i op)
    (h : step c s op = some s') : Calm i s' := by
  have happ : ∀ x : Info, Calm i (subscribe x s) := by
    intro x
    refine ⟨List.mem_append_left _ hc.1, ?_⟩
    intro p hp
    simp only [subscribe, List.mem_append, List.mem_singleton, reduceCtorEq, or_false] at hp
    exact hc.2 p hp
  cases op with
  | subAnon a b ty addr =>
    simp only [step, Option.some.injEq] at h
    subst h
    exact happ _
  | subActor a b ty addr =>
    simp only [step, subActor] at h
    split at h
    · simp only [Option.some.injEq] at h
      subst h
      exact happ _
    · simp at h
  | unsubObj g =>
    obtain ⟨x, _, hk, rfl⟩ := unsubPoint_some h
    refine calm_unsubInfo hc ?_
    intro he
    rw [hk] at he
    simp only [key, Prod.mk.injEq, sig_eq_iff] at he
    exact hn ⟨he.2.2, he.1, he.2.1.1, he.2.1.2⟩
  | unsubName a b ty addr =>
    simp only [step, unsubName, Option.map_eq_some_iff] at h
    obtain ⟨s1, h1, rfl⟩ := h
    obtain ⟨x, _, hk, rfl⟩ := unsubPoint_some h1
    have : Calm i (unsubInfo x s) := by
      refine calm_unsubInfo hc ?_
      intro he
      rw [hk] at he
      simp only [key, Prod.mk.injEq, sig_eq_iff] at he
      exact hn ⟨he.2.2, he.1, he.2.1.1, he.2.1.2⟩
    exact ⟨this.1, this.2⟩
  | turn =>
    simp only [step] at h
    cases hq : s.queue with
    | nil => rw [hq] at h; simp only [Option.some.injEq] at h; subst h; exact hc
    | cons m q =>
      rw [hq] at h
      have hq2 : ∀ p, Msg.unsub p ∈ q → key p ≠ key i := fun p hp => hc.2 p (by rw [hq]; exact List.mem_cons_of_mem _ hp)
      cases m with
      | sub p => simp only [handle, Option.some.injEq] at h; subst h; exact ⟨hc.1, hq2⟩
      | unsub p =>
        have hp : key p ≠ key i := hc.2 p (by rw [hq]; simp)
        have hfk : ∀ {l : List Info} {x : Info}, findLast p l = some x → key x ≠ key i := by
          intro l x hf
          have := List.find?_some hf
          rw [samePoint_iff] at this
          rw [← this]; exact hp
        simp only [handle] at h
        cases hf : findLast p (s.own p.h.actor) with
        | some x =>
          rw [hf] at h
          simp only [Option.some.injEq] at h
          subst h
          exact ⟨calm_forget (s := { s with queue := q }) hc.1 (hfk hf) (hi.oSmall _ x (findLast_mem hf)).2, hq2⟩
        | none =>
          rw [hf] at h
          cases htag : p.tag with
          | plugin => rw [htag] at h; simp only [Option.some.injEq] at h; subst h; exact ⟨hc.1, hq2⟩
          | anon =>
            rw [htag] at h
            cases hf2 : findLast p (s.points p.h.actor) with
            | none => rw [hf2] at h; simp at h
            | some x =>
              rw [hf2] at h
              simp only [Option.some.injEq] at h
              subst h
              exact ⟨calm_forget (s := { s with queue := q }) hc.1 (hfk hf2) (hi.pSmall _ x (findLast_mem hf2)).2.2, hq2⟩

/-- In every program, also with handlers that are alike: a subscription stays as long as no handler alike is
unsubscribed: of the same actor, for the same type of messages, from the same address, and both lambdas or both methods of
the same class.  `ops1`: how the situation came about -/
theorem C63_others (c : Cfg) (ops1 ops2 : List Op) (s1 s2 : State) (i : Info) (h1 : run c State.init ops1 = some s1)
    (hi : i ∈ s1.table)
    (hq : ∀ p, Msg.unsub p ∈ s1.queue →
      ¬ (p.h.actor = i.h.actor ∧ p.addr = i.addr ∧ p.h.ty = i.h.ty ∧ Alike p.h.body i.h.body))
    (hn : ∀ op ∈ ops2, ¬ Hits c i op) (h2 : run c s1 ops2 = some s2) : i ∈ s2.table := by
  have h0 := inv0_run ops1 inv0_init h1
  have hc : Calm i s1 := by
    refine ⟨hi, ?_⟩
    intro p hp he
    simp only [key, Prod.mk.injEq, sig_eq_iff] at he
    exact hq p hp ⟨he.2.2, he.1, he.2.1.1, he.2.1.2⟩
  clear h1 hi hq
  induction ops2 generalizing s1 with
  | nil => simp only [run, Option.some.injEq] at h2; subst h2; exact hc.1
  | cons op ops ih =>
    simp only [run] at h2
    split at h2
    · simp at h2
    · rename_i s' hs
      exact ih s' (fun o ho => hn o (by simp [ho])) h2 (inv0_step h0 hs) (calm_step h0 hc (hn op (by simp)) hs)

/-- Unsubscribing by the method fails for every actor that is not a supervisor, whatever is subscribed: the lifetime plugin
of the supervisor is asked, and it knows the handlers of the supervisor only -/
theorem C63_by_method_counterexample (c : Cfg) (ops : List Op) (s : State) (hr : run c State.init ops = some s)
    (a : Nat) (b : Body) (ty addr : Nat) (ha : c.supOf a ≠ a) : step c s (.unsubName a b ty addr) = none := by
  have h0 := inv0_run ops inv0_init hr
  simp only [step, unsubName, Option.map_eq_none_iff]
  cases hu : unsubPoint (c.supOf a) ⟨s.next, a, b, ty⟩ addr s with
  | none => rfl
  | some s' =>
    obtain ⟨i, hi, hk, _⟩ := unsubPoint_some hu
    have := (h0.pSmall _ i hi).2.1
    simp only [key, Prod.mk.injEq] at hk
    exact absurd (this.symm.trans hk.2.2) ha

/-- Of handlers that are alike the one subscribed last is hit, whichever is given -/
theorem C63_latest_counterexample (c : Cfg) (ops : List Op) (s : State) (hr : run c State.init ops = some s)
    (a : Nat) (b b' : Body) (ty : Nat) (obj : Nat) (hal : Alike b b') :
    ∃ s', run c s [.subAnon a b' ty (c.mainAddr a), .unsubObj ⟨obj, a, b, ty⟩] = some s' ∧
      s'.queue = s.queue ++ [.sub ⟨⟨s.next, a, b', ty⟩, c.mainAddr a, .anon⟩, .unsub ⟨⟨s.next, a, b', ty⟩, c.mainAddr a, .anon⟩] := by
  have h0 := inv0_run ops inv0_init hr
  have hm : (⟨⟨s.next, a, b', ty⟩, c.mainAddr a, .anon⟩ : Info) ∉ s.marked := by
    intro h
    have := h0.mSmall _ h
    simp at this
  have hk : key ⟨⟨obj, a, b, ty⟩, c.mainAddr a, .anon⟩ = key ⟨⟨s.next, a, b', ty⟩, c.mainAddr a, .anon⟩ := by
    simp only [key, Prod.mk.injEq, true_and, and_true, sig_eq_iff]
    exact hal
  have hf : findLast ⟨⟨obj, a, b, ty⟩, c.mainAddr a, .anon⟩
      (s.points a ++ [⟨⟨s.next, a, b', ty⟩, c.mainAddr a, .anon⟩]) = some ⟨⟨s.next, a, b', ty⟩, c.mainAddr a, .anon⟩ := by
    rw [findLast_congr hk]; exact findLast_append_eq _ _
  simp [run, step, subAnon, subscribe, unsubObj, unsubPoint, upd_same, hf, unsubInfo, hm]

/-! ### Concrete cases -/

def cfg : Cfg := ⟨fun a => 10 + a, fun _ => 0⟩

/-- two methods of one class for the same type of messages: the second is unsubscribed in place of the first -/
theorem C63_methods_counterexample :
    ∃ s, run cfg State.init [.subAnon 1 (.method 0 0) 5 11, .subAnon 1 (.method 0 1) 5 11, .turn, .turn,
        .unsubObj ⟨0, 1, .method 0 0, 5⟩, .turn] = some s ∧
      s.queue = [] ∧ s.table = [⟨⟨0, 1, .method 0 0, 5⟩, 11, .anon⟩] := ⟨_, rfl, rfl, rfl⟩

/-- two lambdas: both are unsubscribed at once, one of them stays -/
theorem C63_lambdas_counterexample :
    ∃ s, run cfg State.init [.subAnon 1 (.lambda 0) 5 11, .subAnon 1 (.lambda 1) 5 11, .turn, .turn,
        .unsubObj ⟨0, 1, .lambda 0, 5⟩, .unsubObj ⟨1, 1, .lambda 1, 5⟩, .turn, .turn, .turn] = some s ∧
      s.queue = [] ∧ s.table = [⟨⟨0, 1, .lambda 0, 5⟩, 11, .anon⟩] := ⟨_, rfl, rfl, rfl⟩

/-- two methods of one class subscribed in `configure`: the assertion "already subscribed" fails for the second -/
theorem C63_starter_counterexample :
    run cfg State.init [.subActor 1 (.method 0 0) 5 11, .subActor 1 (.method 0 1) 5 11] = none := rfl

/-- a handler that is not subscribed any more passes the check made for a call from another locality, because another one
is subscribed -/
theorem C63_foreign_check_counterexample :
    ∃ s, run cfg State.init [.subAnon 1 (.lambda 0) 5 11, .turn, .unsubObj ⟨0, 1, .lambda 0, 5⟩, .turn,
        .subAnon 1 (.lambda 1) 5 11, .turn] = some s ∧
      s.table = [⟨⟨1, 1, .lambda 1, 5⟩, 11, .anon⟩] ∧ stillSubscribed ⟨0, 1, .lambda 0, 5⟩ 11 s = true := ⟨_, rfl, rfl, rfl⟩

/-- the hypotheses of `C63_exact_partial` are met by a program with methods and lambdas for several types of messages, of a
supervisor and another actor, that subscribes again what it had unsubscribed -/
def good : List Op :=
  [.subActor 1 (.method 0 0) 5 11, .subActor 1 (.method 0 1) 6 11, .subAnon 1 (.lambda 0) 5 11, .subAnon 0 (.method 1 0) 5 10,
   .turn, .turn, .unsubObj ⟨0, 1, .method 0 0, 5⟩, .turn, .turn, .unsubName 0 (.method 1 0) 5 10, .turn,
   .subActor 1 (.method 0 1) 5 11, .unsubObj ⟨2, 1, .lambda 0, 5⟩, .turn, .turn, .turn, .turn]

instance (b b' : Body) : Decidable (Alike b b') := by
  cases b <;> cases b' <;> simp only [Alike] <;> infer_instance

instance (s : State) (a : Nat) (b : Body) (ty addr : Nat) : Decidable (NoneAlike s a b ty addr) := by
  unfold NoneAlike; infer_instance

instance (c : Cfg) (w : List Info) (s : State) (op : Op) : Decidable (Allowed c w s op) := by
  cases op <;> simp only [Allowed] <;> infer_instance

/-- decides `Proper` -/
def properB (c : Cfg) : List Info → State → List Op → Bool
  | _, _, [] => true
  | w, s, op :: ops => decide (Allowed c w s op) && match step c s op with
    | none => true
    | some s1 => properB c (want c s.next w op) s1 ops

theorem properB_ok (c : Cfg) (ops : List Op) : ∀ w s, properB c w s ops = true → Proper c w s ops := by
  induction ops with
  | nil => intro w s _; trivial
  | cons op ops ih =>
    intro w s h
    simp only [properB, Bool.and_eq_true, decide_eq_true_eq] at h
    refine ⟨h.1, ?_⟩
    intro s1 hs
    have := h.2
    rw [hs] at this
    exact ih _ _ this

example : Proper cfg [] State.init good := properB_ok _ _ _ _ (by decide)

example : ∃ s, run cfg State.init good = some s ∧ s.queue = [] ∧
    s.table = [⟨⟨1, 1, .method 0 1, 6⟩, 11, .plugin⟩, ⟨⟨5, 1, .method 0 1, 5⟩, 11, .plugin⟩] ∧
    wanted cfg [] State.init good = s.table := ⟨_, rfl, rfl, rfl, rfl⟩

/-- the hypotheses of `C63_others` are met although three handlers that differ in one respect each are unsubscribed -/
example : ∃ s1 s2, run cfg State.init [.subAnon 1 (.method 0 0) 5 11, .subAnon 1 (.method 0 1) 6 11, .subAnon 1 (.method 1 0) 5 11,
        .subAnon 2 (.method 0 0) 5 12] = some s1 ∧
    (⟨⟨0, 1, .method 0 0, 5⟩, 11, .anon⟩ : Info) ∈ s1.table ∧ (∀ p, Msg.unsub p ∉ s1.queue) ∧
    (∀ op ∈ [Op.unsubObj ⟨1, 1, .method 0 1, 6⟩, .unsubObj ⟨2, 1, .method 1 0, 5⟩, .unsubObj ⟨3, 2, .method 0 0, 5⟩,
        .turn, .turn, .turn, .turn, .turn, .turn, .turn], ¬ Hits cfg ⟨⟨0, 1, .method 0 0, 5⟩, 11, .anon⟩ op) ∧
    run cfg s1 [Op.unsubObj ⟨1, 1, .method 0 1, 6⟩, .unsubObj ⟨2, 1, .method 1 0, 5⟩, .unsubObj ⟨3, 2, .method 0 0, 5⟩,
        .turn, .turn, .turn, .turn, .turn, .turn, .turn] = some s2 ∧
    s2.table = [⟨⟨0, 1, .method 0 0, 5⟩, 11, .anon⟩] := by
  refine ⟨_, _, rfl, .head _, ?_, ?_, rfl, rfl⟩
  · intro p hp
    simp [subAnon, subscribe, State.init] at hp
  · simp [Hits, cfg, Alike]

end Verif.HandlerId
