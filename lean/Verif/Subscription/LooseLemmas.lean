import Verif.Subscription.Lemmas

/-! # Refinement up to order, for histories in which handler objects may be shared -/

namespace Verif.Subscription
open Verif

/-- handlers of the live subscriptions to `a` -/
def handlersAt (w : World) (loc : Loc) (s : Spec) (a : AddrId) : List HandlerId :=
  (s.live.filter (fun l => decide (l.addr = a) && decide (w.addrLoc l.addr = loc))).map (·.handler)

/-- a joint entry agrees with two lists up to order -/
def PermJoint : Option Joint → List HandlerId → List HandlerId → Prop
  | none, i, e => i = [] ∧ e = []
  | some j, i, e => j.internal.Perm i ∧ j.external.Perm e ∧ ¬(i = [] ∧ e = [])

/-- an info list agrees with a list of handlers up to order -/
def PermInfos (t : Table) : Option (List InfoId) → List HandlerId → Prop
  | none, hs => hs = []
  | some l, hs => l ≠ [] ∧ (l.map t.handlerOf).Perm (hs.map some)

structure LInv (w : World) (t : Table) (s : Spec) : Prop where
  made : t.heap.length = s.made
  lt : ∀ l ∈ s.live, l.id < s.made
  nodup : s.live.Pairwise (fun l l' => l.id ≠ l'.id)
  heap : ∀ l ∈ s.live, t.heap[l.id]? =
    some ⟨l.handler, l.addr, decide (w.addrLoc l.addr = t.mainLoc), decide (w.handlerLoc l.handler = t.mainLoc)⟩
  infos : ∀ a, PermInfos t (t.infos.find a) (handlersAt w t.mainLoc s a)
  mine : ∀ a ty, PermJoint (t.mine.find (a, ty))
    (s.expected w t.mainLoc a ty true) (s.expected w t.mainLoc a ty false)

theorem linv_empty (w : World) (loc : Loc) : LInv w (Table.empty loc) Spec.empty := by
  constructor <;> simp [Table.empty, Spec.empty, handlersAt, Spec.expected, PermInfos, PermJoint]

theorem handlersAt_append (w : World) (loc : Loc) (s : Spec) (n : Nat) (x : Live) (a : AddrId) :
    handlersAt w loc ⟨n, s.live ++ [x]⟩ a = handlersAt w loc s a ++
      (if x.addr = a ∧ w.addrLoc x.addr = loc then [x.handler] else []) := by
  simp only [handlersAt, List.filter_append, List.map_append, List.append_cancel_left_eq]
  simp only [List.filter_cons, List.filter_nil]
  split <;> split <;> grind

theorem permInfos_heap {t t' : Table} {o : Option (List InfoId)} {hs : List HandlerId}
    (h : PermInfos t o hs) (hh : ∀ l, o = some l → ∀ i ∈ l, t'.handlerOf i = t.handlerOf i) :
    PermInfos t' o hs := by
  cases o with
  | none => exact h
  | some l =>
    refine ⟨h.1, ?_⟩
    have : l.map t'.handlerOf = l.map t.handlerOf := List.map_congr_left (fun i hi => hh l rfl i hi)
    rw [this]; exact h.2

theorem permInfos_some {t : Table} {l : List InfoId} {hs : List HandlerId} (h : PermInfos t (some l) hs)
    {i : InfoId} (hi : i ∈ l) : i < t.heap.length := by
  have : t.handlerOf i ∈ hs.map some := h.2.subset (List.mem_map.2 ⟨i, hi, rfl⟩)
  obtain ⟨y, _, hy⟩ := List.mem_map.1 this
  simp only [Table.handlerOf] at hy
  by_cases hlt : i < t.heap.length
  · exact hlt
  · have : t.heap[i]? = none := List.getElem?_eq_none (Nat.le_of_not_lt hlt)
    simp [this] at hy

theorem permJoint_getD {o : Option Joint} {i e : List HandlerId} (h : PermJoint o i e) :
    (o.getD ⟨[], []⟩).internal.Perm i ∧ (o.getD ⟨[], []⟩).external.Perm e := by
  cases o with
  | none => simp only [PermJoint] at h; simp [h.1, h.2]
  | some j => exact ⟨h.1, h.2.1⟩

theorem permInfos_getD {t : Table} {o : Option (List InfoId)} {hs : List HandlerId} (h : PermInfos t o hs) :
    ((o.getD []).map t.handlerOf).Perm (hs.map some) := by
  cases o with
  | none => simp only [PermInfos] at h; simp [h]
  | some l => exact h.2

theorem linv_subscribe (w : World) (t : Table) (s : Spec) (h : HandlerId) (a : AddrId)
    (hi : LInv w t s) : LInv w (t.materialize w h a).1 (s.step (.subscribe h a)) := by
  have hloc : (t.materialize w h a).1.mainLoc = t.mainLoc := by
    simp only [Table.materialize]; split <;> rfl
  have hheap : (t.materialize w h a).1.heap = t.heap ++
      [⟨h, a, decide (w.addrLoc a = t.mainLoc), decide (w.handlerLoc h = t.mainLoc)⟩] := by
    simp only [Table.materialize]; split <;> rfl
  have hof : ∀ i, i < t.heap.length → (t.materialize w h a).1.handlerOf i = t.handlerOf i := by
    intro i hlt
    simp only [Table.handlerOf, hheap]
    rw [List.getElem?_append_left hlt]
  have hofn : (t.materialize w h a).1.handlerOf t.heap.length = some h := by
    simp [Table.handlerOf, hheap]
  have hkeep : ∀ b, PermInfos (t.materialize w h a).1 (t.infos.find b) (handlersAt w t.mainLoc s b) := by
    intro b
    apply permInfos_heap (hi.infos b)
    intro l hl i hil
    exact hof i (permInfos_some (by rw [← hl]; exact hi.infos b) hil)
  constructor
  · simp [hheap, Spec.step, hi.made]
  · intro l hl'
    simp only [Spec.step, List.mem_append, List.mem_singleton] at hl' ⊢
    rcases hl' with hl' | rfl
    · have := hi.lt l hl'; exact Nat.lt_succ_of_lt this
    · simp
  · simp only [Spec.step, List.pairwise_append]
    refine ⟨hi.nodup, by simp, ?_⟩
    intro x hx y hy
    simp only [List.mem_singleton] at hy; subst hy
    have := hi.lt x hx; simp only; exact Nat.ne_of_lt this
  · intro l hl'
    rw [hheap, hloc]
    simp only [Spec.step, List.mem_append, List.mem_singleton] at hl'
    rcases hl' with hl' | rfl
    · have := hi.heap l hl'
      have h2 := hi.lt l hl'
      rw [List.getElem?_append_left (by rw [hi.made]; exact h2), this]
    · simp [← hi.made]
  · intro b
    rw [hloc]
    simp only [Spec.step]
    rw [handlersAt_append]
    have hb := hkeep b
    by_cases hint : w.addrLoc a = t.mainLoc
    · have hfi : (t.materialize w h a).1.infos =
          t.infos.set a ((t.infos.find a).getD [] ++ [t.heap.length]) := by
        simp [Table.materialize, hint]
      rw [hfi, AMap.find_set]
      by_cases hab : b = a
      · subst hab
        simp only [hint, and_self, if_true, PermInfos]
        refine ⟨by simp, ?_⟩
        have := permInfos_getD hb
        simp only [List.map_append, List.map_cons, List.map_nil, hofn]
        exact this.append_right _
      · have : ¬ a = b := fun h => hab h.symm
        simpa [hab, this] using hb
    · have hfi : (t.materialize w h a).1.infos = t.infos := by simp [Table.materialize, hint]
      rw [hfi]; simpa [hint] using hb
  · intro b ty
    rw [hloc]
    simp only [Spec.step]
    rw [expected_append, expected_append]
    have hb := hi.mine b ty
    have ha := permJoint_getD (hi.mine a (w.msgType h))
    by_cases hint : w.addrLoc a = t.mainLoc
    · simp only [Table.materialize, hint, decide_true, if_true, AMap.find_set]
      by_cases hab : (b, ty) = (a, w.msgType h)
      · simp only [Prod.mk.injEq] at hab
        obtain ⟨rfl, rfl⟩ := hab
        simp only [if_true, true_and]
        by_cases hh : w.handlerLoc h = t.mainLoc
        · simp only [hh, decide_true, Joint.put, Joint.get, if_true, PermJoint]
          refine ⟨ha.1.append_right _, by simpa using ha.2, by simp⟩
        · simp only [hh, decide_false, Joint.put, Joint.get, if_true, PermJoint, Bool.false_eq_true, if_false]
          refine ⟨by simpa using ha.1, ha.2.append_right _, by simp⟩
      · have h1 : ¬ (a = b ∧ w.msgType h = ty) := by
          intro ⟨x, y⟩; exact hab (by simp [x, y])
        have h2 : ∀ q r, ¬ (a = b ∧ w.msgType h = ty ∧ q ∧ r) := fun q r x => h1 ⟨x.1, x.2.1⟩
        simp only [hab, if_false]
        rw [if_neg (h2 _ _), if_neg (h2 _ _)]; simpa using hb
    · simpa [Table.materialize, hint] using hb

theorem live_perm {s : Spec} (hn : s.live.Pairwise (fun l l' => l.id ≠ l'.id)) {x : Live} (hx : x ∈ s.live) :
    s.live.Perm (x :: (s.step (.forget x.id)).live) := by
  simp only [Spec.step]
  generalize s.live = L at hn hx
  induction L with
  | nil => simp at hx
  | cons y r ih =>
    rw [List.pairwise_cons] at hn
    rcases List.mem_cons.1 hx with rfl | hx
    · have : r.filter (fun l => decide (l.id ≠ x.id)) = r := by
        apply List.filter_eq_self.2
        intro z hz
        have := hn.1 z hz
        simp only [decide_eq_true_eq]; exact fun h => this h.symm
      rw [List.filter_cons]
      simp only [ne_eq, not_true_eq_false, decide_false, Bool.false_eq_true, if_false] at this ⊢
      rw [this]
    · have hne := hn.1 x hx
      simp only [List.filter_cons, ne_eq, hne, not_false_eq_true, decide_true, if_true]
      exact ((ih hn.2 hx).cons y).trans (List.Perm.swap x y _)

theorem expected_perm (w : World) (loc : Loc) {s : Spec} (hn : s.live.Pairwise (fun l l' => l.id ≠ l'.id))
    {x : Live} (hx : x ∈ s.live) (a : AddrId) (ty : TypeId) (own : Bool) :
    (s.expected w loc a ty own).Perm
      ((if x.addr = a ∧ w.msgType x.handler = ty ∧ w.addrLoc x.addr = loc ∧
        decide (w.handlerLoc x.handler = loc) = own then [x.handler] else []) ++
        (s.step (.forget x.id)).expected w loc a ty own) := by
  have := ((live_perm hn hx).filter (fun l => decide (l.addr = a) && decide (w.msgType l.handler = ty) &&
        decide (w.addrLoc l.addr = loc) && (decide (w.handlerLoc l.handler = loc) == own))).map (·.handler)
  refine this.trans ?_
  rw [List.filter_cons]
  unfold Spec.expected
  split <;> split
  · simp
  · grind
  · grind
  · simp

theorem handlersAt_perm (w : World) (loc : Loc) {s : Spec} (hn : s.live.Pairwise (fun l l' => l.id ≠ l'.id))
    {x : Live} (hx : x ∈ s.live) (a : AddrId) :
    (handlersAt w loc s a).Perm
      ((if x.addr = a ∧ w.addrLoc x.addr = loc then [x.handler] else []) ++
        handlersAt w loc (s.step (.forget x.id)) a) := by
  have := ((live_perm hn hx).filter (fun l => decide (l.addr = a) && decide (w.addrLoc l.addr = loc))).map (·.handler)
  refine this.trans ?_
  rw [List.filter_cons]
  unfold handlersAt
  split <;> split
  · simp
  · grind
  · grind
  · simp

theorem permInfos_perm {t : Table} {o : Option (List InfoId)} {a b : List HandlerId} (h : PermInfos t o a)
    (hp : a.Perm b) : PermInfos t o b := by
  cases o with
  | none => simp only [PermInfos] at *; subst h; simpa using hp.symm
  | some l => exact ⟨h.1, h.2.trans (hp.map some)⟩

theorem perm_nil_and {a b c d : List HandlerId} (h : a.Perm c) (h' : b.Perm d) :
    (a = [] ∧ b = []) ↔ (c = [] ∧ d = []) := by
  constructor
  · rintro ⟨rfl, rfl⟩; exact ⟨by simpa using h.symm, by simpa using h'.symm⟩
  · rintro ⟨rfl, rfl⟩; exact ⟨by simpa using h, by simpa using h'⟩

theorem permJoint_perm {o : Option Joint} {a b c d : List HandlerId} (h : PermJoint o a b)
    (hp : a.Perm c) (hq : b.Perm d) : PermJoint o c d := by
  have := perm_nil_and hp hq
  cases o with
  | none => exact this.1 h
  | some j => exact ⟨h.1.trans hp, h.2.1.trans hq, fun hc => h.2.2 (this.2 hc)⟩

theorem linv_forget (w : World) (t : Table) (s : Spec) (id : InfoId)
    (hi : LInv w t s) (hl : s.legalLoose (.forget id)) :
    ∃ t', t.forget w id = .ok t' ∧ t'.mainLoc = t.mainLoc ∧ LInv w t' (s.step (.forget id)) := by
  obtain ⟨x, hx, rfl⟩ := hl
  have hheap := hi.heap x hx
  simp only [Table.forget, hheap]
  have hlive : ∀ l, l ∈ (s.step (.forget x.id)).live ↔ l ∈ s.live ∧ l.id ≠ x.id := by
    intro l; simp [Spec.step]
  have hnd : (s.step (.forget x.id)).live.Pairwise (fun l l' => l.id ≠ l'.id) := hi.nodup.filter _
  by_cases hint : w.addrLoc x.addr = t.mainLoc
  · simp only [hint, decide_true, if_true]
    have hpa := handlersAt_perm w t.mainLoc hi.nodup hx x.addr
    simp only [hint, and_self, if_true] at hpa
    have hinf := permInfos_perm (hi.infos x.addr) hpa
    cases hfind : t.infos.find x.addr with
    | none => rw [hfind] at hinf; simp [PermInfos] at hinf
    | some infoList =>
      rw [hfind] at hinf
      simp only
      obtain ⟨il', hil⟩ := eraseIf_isSome (fun y => t.handlerOf y == some x.handler) infoList (by
        have : some x.handler ∈ infoList.map t.handlerOf := by
          apply hinf.2.symm.subset; simp
        obtain ⟨y, hy, hyx⟩ := List.mem_map.1 this
        exact ⟨y, hy, by simp [hyx]⟩)
      obtain ⟨y, hy, hyp⟩ := eraseIf_perm _ _ _ hil
      simp only [beq_iff_eq] at hy
      have hil' : (il'.map t.handlerOf).Perm
          ((handlersAt w t.mainLoc (s.step (.forget x.id)) x.addr).map some) := by
        have h1 := (hyp.map t.handlerOf).symm.trans hinf.2
        simp only [List.map_cons, hy, List.singleton_append] at h1
        exact List.Perm.cons_inv h1
      simp only [hil]
      let own := decide (w.handlerLoc x.handler = t.mainLoc)
      have hpe : ∀ b, (s.expected w t.mainLoc x.addr (w.msgType x.handler) b).Perm
          ((if own = b then [x.handler] else []) ++
            (s.step (.forget x.id)).expected w t.mainLoc x.addr (w.msgType x.handler) b) := by
        intro b
        have := expected_perm w t.mainLoc hi.nodup hx x.addr (w.msgType x.handler) b
        simpa [hint, own] using this
      have hmine := permJoint_perm (hi.mine x.addr (w.msgType x.handler)) (hpe true) (hpe false)
      cases hj : t.mine.find (x.addr, w.msgType x.handler) with
      | none =>
        rw [hj] at hmine
        cases hown : own <;> simp [PermJoint, hown] at hmine
      | some joint =>
        rw [hj] at hmine
        simp only
        have hget : (joint.get own).Perm (x.handler ::
            (s.step (.forget x.id)).expected w t.mainLoc x.addr (w.msgType x.handler) own) := by
          cases hown : own
          · have := hmine.2.1; simpa [hown, Joint.get] using this
          · have := hmine.1; simpa [hown, Joint.get] using this
        have hgetn : (joint.get (!own)).Perm
            ((s.step (.forget x.id)).expected w t.mainLoc x.addr (w.msgType x.handler) (!own)) := by
          cases hown : own
          · have := hmine.1; simpa [hown, Joint.get] using this
          · have := hmine.2.1; simpa [hown, Joint.get] using this
        obtain ⟨l', hl'⟩ := eraseIf_isSome (fun y => y == x.handler) (joint.get own) (by
          exact ⟨x.handler, hget.symm.subset (by simp), by simp⟩)
        obtain ⟨z, hz, hzp⟩ := eraseIf_perm _ _ _ hl'
        simp only [beq_iff_eq] at hz; subst hz
        have hl'p : l'.Perm ((s.step (.forget x.id)).expected w t.mainLoc x.addr (w.msgType x.handler) own) :=
          List.Perm.cons_inv (hzp.symm.trans hget)
        change ∃ t', (match eraseIf (fun y => y == x.handler) (joint.get own) with
          | none => Except.error Fault.assertFailed
          | some l => _) = Except.ok t' ∧ _
        rw [hl']
        refine ⟨_, rfl, rfl, ?_⟩
        have hother : ∀ b ty b', (b, ty) ≠ (x.addr, w.msgType x.handler) →
            (s.expected w t.mainLoc b ty b').Perm ((s.step (.forget x.id)).expected w t.mainLoc b ty b') := by
          intro b ty b' hne
          have := expected_perm w t.mainLoc hi.nodup hx b ty b'
          rwa [if_neg, List.nil_append] at this
          intro hc; exact hne (by simp [hc.1, hc.2.1])
        constructor
        · simp [Spec.step, hi.made]
        · intro l hl'; rw [hlive] at hl'; exact hi.lt l hl'.1
        · exact hnd
        · intro l hl'; rw [hlive] at hl'; exact hi.heap l hl'.1
        · intro b
          have hsame : ∀ (t' : Table), t'.heap = t.heap → t'.handlerOf = t.handlerOf := by
            intro t' h; funext i; simp [Table.handlerOf, h]
          by_cases hb : b = x.addr
          · subst hb
            by_cases he : il' = []
            · simp only [he, if_true, AMap.find_erase_self, PermInfos]
              rw [he] at hil'
              simpa using hil'
            · simp only [he, if_false, AMap.find_set_self, PermInfos]
              refine ⟨by simpa using he, ?_⟩
              exact hil'
          · have h2 := handlersAt_perm w t.mainLoc hi.nodup hx b
            rw [if_neg (by intro hc; exact hb hc.1.symm), List.nil_append] at h2
            have h3 := permInfos_perm (hi.infos b) h2
            have h4 : ∀ o hs, PermInfos t o hs →
               PermInfos { t with
                 infos := if il' = [] then t.infos.erase x.addr else t.infos.set x.addr il'
                 mine := if (joint.put own l').get own = [] ∧ (joint.put own l').get (!own) = []
                   then t.mine.erase (x.addr, w.msgType x.handler)
                   else t.mine.set (x.addr, w.msgType x.handler) (joint.put own l') } o hs := by
              intro o hs h; exact permInfos_heap h (fun _ _ _ _ => rfl)
            have h5 := h4 _ _ h3
            have h6 : (if il' = [] then t.infos.erase x.addr else t.infos.set x.addr il').find b = t.infos.find b := by
              split
              · rw [AMap.find_erase_ne _ hb]
              · rw [AMap.find_set_ne _ _ hb]
            simp only
            rw [h6]; exact h5
        · intro b ty
          by_cases hb : (b, ty) = (x.addr, w.msgType x.handler)
          · simp only [Prod.mk.injEq] at hb
            obtain ⟨rfl, rfl⟩ := hb
            have hg1 : (joint.put own l').get own = l' := by cases own <;> rfl
            have hg2 : (joint.put own l').get (!own) = joint.get (!own) := by cases own <;> rfl
            simp only
            have hiff := perm_nil_and hl'p hgetn
            have e1 : decide (w.handlerLoc x.handler = t.mainLoc) = own := rfl
            rw [e1, hg1, hg2]
            split
            · rename_i hc
              rw [AMap.find_erase_self]
              have := hiff.1 hc
              cases hown : own <;> rw [hown] at this <;> simp only [Bool.not_true, Bool.not_false] at this
              · exact ⟨this.2, this.1⟩
              · exact this
            · rename_i hc
              rw [AMap.find_set_self]
              have hc' := fun h => hc (hiff.2 h)
              cases hown : own
              · rw [hown] at hc' hl'p hgetn
                refine ⟨?_, ?_, fun h => hc' ⟨h.2, h.1⟩⟩
                · simpa [Joint.put, Joint.get] using hgetn
                · simpa [Joint.put, Joint.get] using hl'p
              · rw [hown] at hc' hl'p hgetn
                refine ⟨?_, ?_, fun h => hc' ⟨h.1, h.2⟩⟩
                · simpa [Joint.put, Joint.get] using hl'p
                · simpa [Joint.put, Joint.get] using hgetn
          · have := permJoint_perm (hi.mine b ty) (hother b ty true hb) (hother b ty false hb)
            simp only
            split
            · rw [AMap.find_erase_ne _ hb]; exact this
            · rw [AMap.find_set_ne _ _ hb]; exact this
  · simp only [hint, decide_false, Bool.false_eq_true, if_false]
    refine ⟨t, rfl, rfl, ?_⟩
    constructor
    · simp [Spec.step, hi.made]
    · intro l hl'; rw [hlive] at hl'; exact hi.lt l hl'.1
    · exact hnd
    · intro l hl'; rw [hlive] at hl'; exact hi.heap l hl'.1
    · intro b
      have h2 := handlersAt_perm w t.mainLoc hi.nodup hx b
      rw [if_neg (by intro hc; exact hint hc.2), List.nil_append] at h2
      exact permInfos_perm (hi.infos b) h2
    · intro b ty
      apply permJoint_perm (hi.mine b ty)
      all_goals
        first
        | have h2 := expected_perm w t.mainLoc hi.nodup hx b ty true
          rw [if_neg (by intro hc; exact hint hc.2.2.1), List.nil_append] at h2
          exact h2
        | have h2 := expected_perm w t.mainLoc hi.nodup hx b ty false
          rw [if_neg (by intro hc; exact hint hc.2.2.1), List.nil_append] at h2
          exact h2

theorem linv_run (w : World) (ops : List Op) (t : Table) (s : Spec) (hi : LInv w t s)
    (hl : Spec.legalLooseHistory s ops) :
    ∃ t', t.run w ops = .ok t' ∧ t'.mainLoc = t.mainLoc ∧ LInv w t' (s.run ops) := by
  induction ops generalizing t s with
  | nil => exact ⟨t, rfl, rfl, hi⟩
  | cons op ops ih =>
    have : ∃ t', t.step w op = .ok t' ∧ t'.mainLoc = t.mainLoc ∧ LInv w t' (s.step op) := by
      cases op with
      | subscribe h a =>
        refine ⟨_, rfl, ?_, linv_subscribe w t s h a hi⟩
        simp only [Table.materialize]; split <;> rfl
      | forget id => exact linv_forget w t s id hi hl.1
      | tag id h' => exact absurd hl.1 (by simp [Spec.legalLoose])
    obtain ⟨t1, h1, h2, h3⟩ := this
    obtain ⟨t2, h4, h5, h6⟩ := ih t1 _ h3 hl.2
    refine ⟨t2, ?_, h5.trans h2, h6⟩
    simp only [Table.run, h1, h4]

/-! ### nested supervisors -/

/-- no entry of a non-leader's own table is ever made -/
def NestedEmpty (l : Locality) : Prop :=
  ∀ i, i ≠ l.leader → (l.tables i).mine = [] ∧ (l.tables i).mainLoc = l.loc

theorem update_mine_nil {w : World} {t t' : Table} {id : InfoId} {h' : HandlerId} (hm : t.mine = [])
    (h : t.update w id h' = .ok t') : t'.mine = [] ∧ t'.mainLoc = t.mainLoc := by
  unfold Table.update at h
  cases hg : t.heap[id]? with
  | none => simp [hg] at h
  | some info =>
    simp only [hg, hm, AMap.find_nil] at h
    split at h
    · simp at h
    · simp only [Except.ok.injEq] at h; subst h; exact ⟨rfl, rfl⟩

theorem nested_step {w : World} {supOf : HandlerId → Nat} {l l' : Locality} {op : Op}
    (hn : NestedEmpty l) (h : l.step w supOf op = .ok l') : NestedEmpty l' ∧ l'.leader = l.leader ∧ l'.loc = l.loc := by
  cases op with
  | subscribe hd a =>
    simp only [Locality.step, Except.ok.injEq] at h; subst h
    refine ⟨?_, rfl, rfl⟩
    intro i hi
    simp only [Locality.putTable] at hi ⊢
    simp only [hi, if_false]; exact hn i hi
  | forget id =>
    simp only [Locality.step] at h
    split at h
    · simp at h
    · simp only [Except.ok.injEq] at h; subst h
      refine ⟨?_, rfl, rfl⟩
      intro i hi
      simp only [Locality.putTable] at hi ⊢
      simp only [hi, if_false]; exact hn i hi
  | tag id hd =>
    simp only [Locality.step] at h
    split at h
    · simp at h
    · rename_i info hinfo
      split at h
      · simp at h
      · rename_i t' ht'
        simp only [Except.ok.injEq] at h; subst h
        refine ⟨?_, rfl, rfl⟩
        intro i hi
        simp only [Locality.putTable] at hi ⊢
        split
        · rename_i his
          subst his
          have hni := hn _ hi
          have := update_mine_nil hni.1 ht'
          exact ⟨this.1, this.2.trans hni.2⟩
        · exact hn i hi

theorem nested_run {w : World} {supOf : HandlerId → Nat} {l l' : Locality} {ops : List Op}
    (hn : NestedEmpty l) (h : l.run w supOf ops = .ok l') : NestedEmpty l' ∧ l'.leader = l.leader ∧ l'.loc = l.loc := by
  induction ops generalizing l with
  | nil => simp only [Locality.run, Except.ok.injEq] at h; subst h; exact ⟨hn, rfl, rfl⟩
  | cons op ops ih =>
    simp only [Locality.run] at h
    split at h
    · simp at h
    · rename_i l1 h1
      obtain ⟨a, b, c⟩ := nested_step hn h1
      obtain ⟨a', b', c'⟩ := ih a h
      exact ⟨a', b'.trans b, c'.trans c⟩

/-- all supervisors of a locality see the same info objects -/
theorem heap_step {w : World} {supOf : HandlerId → Nat} {l l' : Locality} {op : Op}
    (hn : ∀ i, (l.tables i).heap = (l.tables l.leader).heap) (h : l.step w supOf op = .ok l') :
    ∀ i, (l'.tables i).heap = (l'.tables l'.leader).heap := by
  have key : ∀ s t, ∀ i, ((l.putTable s t).tables i).heap = ((l.putTable s t).tables l.leader).heap := by
    intro s t i
    simp only [Locality.putTable]
    split <;> split <;> rfl
  cases op with
  | subscribe hd a => simp only [Locality.step, Except.ok.injEq] at h; subst h; exact key _ _
  | forget id =>
    simp only [Locality.step] at h
    split at h
    · simp at h
    · simp only [Except.ok.injEq] at h; subst h; exact key _ _
  | tag id hd =>
    simp only [Locality.step] at h
    split at h
    · simp at h
    · split at h
      · simp at h
      · simp only [Except.ok.injEq] at h; subst h; exact key _ _

theorem heap_run {w : World} {supOf : HandlerId → Nat} {l l' : Locality} {ops : List Op}
    (hn : ∀ i, (l.tables i).heap = (l.tables l.leader).heap) (h : l.run w supOf ops = .ok l') :
    ∀ i, (l'.tables i).heap = (l'.tables l'.leader).heap := by
  induction ops generalizing l with
  | nil => simp only [Locality.run, Except.ok.injEq] at h; subst h; exact hn
  | cons op ops ih =>
    simp only [Locality.run] at h
    split at h
    · simp at h
    · rename_i l1 h1; exact ih (heap_step hn h1) h

end Verif.Subscription
