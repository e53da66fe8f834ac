import Verif.AddressMapping.Model

/-!
# Property C44: response addresses are private per requester and response type
-/

namespace Verif.AddressMapping
open AMap

/-- only existing subscriptions can be confirmed as removed (the supervisor undoes a subscription
once, C02): every removal in the history is of a subscription the supervisor holds at that time -/
def Valid (s : State) : List Op → Prop
  | [] => True
  | op :: ops =>
    (match op with | .unsubscribed a i => (a, i) ∈ s.subs | _ => True) ∧
    (∀ s' tr, step s op = .ok (s', tr) → Valid s' ops)

structure Inv (s : State) : Prop where
  nodup : (keys s.nat).Nodup
  inner : ∀ a pm, s.nat.find a = some pm → pm ≠ [] ∧ (keys pm).Nodup
  ty : ∀ a pm t i, s.nat.find a = some pm → pm.find t = some i → i.ty = t
  subs : ∀ a i, (a, i) ∈ s.subs ↔ ∃ pm, s.nat.find a = some pm ∧ pm.find i.ty = some i
  subsNodup : s.subs.Nodup
  fresh : ∀ a i, (a, i) ∈ s.subs → i.addr < s.next ∧ i.handler < s.next
  uniq : ∀ a b i j, (a, i) ∈ s.subs → (b, j) ∈ s.subs → i.addr = j.addr → a = b ∧ i = j

/-- the address in use for (actor, type) -/
theorem getMapped_eq {s : State} (hi : Inv s) (a ty x : Nat) :
    getMapped s.nat a ty = some x ↔ ∃ i, (a, i) ∈ s.subs ∧ i.ty = ty ∧ i.addr = x := by
  unfold getMapped
  constructor
  · intro h
    cases hf : s.nat.find a with
    | none => simp [hf] at h
    | some pm =>
      rw [hf] at h
      simp only [Option.map_eq_some_iff] at h
      obtain ⟨i, h1, h2⟩ := h
      have := hi.ty a pm ty i hf h1
      exact ⟨i, (hi.subs a i).2 ⟨pm, hf, by rw [this]; exact h1⟩, this, h2⟩
  · rintro ⟨i, h1, h2, h3⟩
    obtain ⟨pm, k1, k2⟩ := (hi.subs a i).1 h1
    rw [k1]; simp only; rw [← h2, k2]; simp [h3]

theorem inv_request {s : State} (hi : Inv s) (a ty : Nat) : Inv (request s a ty).1 := by
  unfold request build
  cases hm : getMapped s.nat a ty with
  | some x => simpa [send] using hi
  | none =>
    simp only [send, if_true]
    -- the inner map before
    let pm := (s.nat.find a).getD []
    have hpmf : pm.find ty = none := by
      simp only [pm]
      unfold getMapped at hm
      cases hf : s.nat.find a with
      | none => rfl
      | some q => rw [hf] at hm; simpa using hm
    have hpmnd : (keys pm).Nodup := by
      simp only [pm]
      cases hf : s.nat.find a with
      | none => simp [keys]
      | some q => exact (hi.inner a q hf).2
    let info : Info := ⟨s.next + 1, s.next, ty⟩
    have hset : set s.nat a info = s.nat.set a (pm.set ty info) := by
      unfold set
      simp only
      rw [show ((s.nat.find a).getD []) = pm from rfl]
      rw [show info.ty = ty from rfl, hpmf]; rfl
    have hnew : ∀ b pm', (s.nat.set a (pm.set ty info)).find b = some pm' →
        (b = a ∧ pm' = pm.set ty info) ∨ (b ≠ a ∧ s.nat.find b = some pm') := by
      intro b pm' h
      rw [find_set] at h
      split at h
      · rename_i hb; simp at h; exact .inl ⟨hb, h.symm⟩
      · rename_i hb; exact .inr ⟨hb, h⟩
    have hsub : ∀ i, (a, i) ∈ s.subs ↔ pm.find i.ty = some i := by
      intro i
      rw [hi.subs]
      simp only [pm]
      cases hf : s.nat.find a with
      | none => simp
      | some q => simp
    change Inv ⟨set s.nat a info, s.subs ++ [(a, info)], s.next + 1 + 1⟩
    rw [hset]
    constructor
    · exact keys_set_nodup _ _ _ hi.nodup
    · intro b pm' h
      rcases hnew b pm' h with ⟨rfl, rfl⟩ | ⟨_, h'⟩
      · refine ⟨?_, keys_set_nodup _ _ _ hpmnd⟩
        intro hc
        have := find_set_self pm ty info
        rw [hc] at this; simp at this
      · exact hi.inner b pm' h'
    · intro b pm' t i h ht
      rcases hnew b pm' h with ⟨rfl, rfl⟩ | ⟨_, h'⟩
      · rw [find_set] at ht
        split at ht
        · rename_i he; simp at ht; rw [← ht, he]
        · simp only [pm] at ht
          cases hf : s.nat.find b with
          | none => rw [hf] at ht; simp at ht
          | some q => rw [hf] at ht; exact hi.ty b q t i hf ht
      · exact hi.ty b pm' t i h' ht
    · intro b i
      simp only [List.mem_append, List.mem_singleton, Prod.mk.injEq]
      constructor
      · rintro (h | ⟨rfl, rfl⟩)
        · by_cases hb : b = a
          · subst hb
            refine ⟨pm.set ty info, find_set_self _ _ _, ?_⟩
            have := (hsub i).1 h
            have hne : i.ty ≠ ty := by intro hc; rw [hc, hpmf] at this; simp at this
            rw [find_set_ne _ _ hne]; exact this
          · obtain ⟨q, h1, h2⟩ := (hi.subs b i).1 h
            exact ⟨q, by rw [find_set_ne _ _ hb]; exact h1, h2⟩
        · exact ⟨pm.set ty info, find_set_self _ _ _, find_set_self _ _ _⟩
      · rintro ⟨q, h1, h2⟩
        rcases hnew b q h1 with ⟨rfl, rfl⟩ | ⟨hb, h'⟩
        · rw [find_set] at h2
          split at h2
          · simp at h2; exact .inr ⟨rfl, h2.symm⟩
          · exact .inl ((hsub i).2 h2)
        · exact .inl ((hi.subs b i).2 ⟨q, h', h2⟩)
    · rw [List.nodup_append]
      refine ⟨hi.subsNodup, by simp, ?_⟩
      intro x hx y hy
      simp at hy; subst hy
      rintro rfl
      have := (hi.fresh a info hx).1
      simp [info] at this
    · intro b i h
      simp only [List.mem_append, List.mem_singleton, Prod.mk.injEq] at h
      rcases h with h | ⟨rfl, rfl⟩
      · have := hi.fresh b i h; simp only; omega
      · simp only [info]; omega
    · intro b c i j h1 h2 he
      simp only [List.mem_append, List.mem_singleton, Prod.mk.injEq] at h1 h2
      rcases h1 with h1 | ⟨rfl, rfl⟩ <;> rcases h2 with h2 | ⟨rfl, rfl⟩
      · exact hi.uniq b c i j h1 h2 he
      · have := (hi.fresh b i h1).1; simp only [info] at he; omega
      · have := (hi.fresh c j h2).1; simp only [info] at he; omega
      · exact ⟨rfl, rfl⟩

theorem removeFirst_eq {pm : AMap Nat Info} (hn : (keys pm).Nodup) (t : Nat) (i : Info) (h : pm.find t = some i)
    (hu : ∀ t' j, pm.find t' = some j → j.addr = i.addr → j = i ∧ t' = t) :
    removeFirst pm i.handler i.addr = pm.erase t := by
  induction pm with
  | nil => simp at h
  | cons e r ih =>
    obtain ⟨k, x⟩ := e
    simp only [keys, List.map_cons, List.nodup_cons] at hn
    have herase : ∀ r : AMap Nat Info, t ∉ r.map (·.1) → AMap.erase r t = r := by
      intro r hr
      unfold AMap.erase
      rw [List.filter_eq_self]
      intro p hp
      simp only [decide_eq_true_eq]
      intro hc; exact hr (by rw [← hc]; exact List.mem_map_of_mem hp)
    by_cases hk : k = t
    · subst hk
      have hx : x = i := by simpa [AMap.find] using h
      subst hx
      simp only [removeFirst, true_and, if_true, AMap.erase, List.filter_cons]
      simp only [ne_eq, not_true_eq_false, decide_false, Bool.false_eq_true, if_false]
      exact (herase r hn.1).symm
    · have hx : ¬ (x.handler = i.handler ∧ x.addr = i.addr) := by
        rintro ⟨_, h2⟩
        have := hu k x (by simp [AMap.find]) h2
        exact hk this.2
      simp only [removeFirst, hx, if_false, AMap.erase, List.filter_cons]
      simp only [ne_eq, hk, not_false_eq_true, decide_true, if_true, List.cons.injEq, true_and]
      apply ih hn.2
      · simpa [AMap.find, hk] using h
      · intro t' j hj ha
        have hmem := mem_of_find hj
        have : k ≠ t' := by
          intro hc
          exact hn.1 (by rw [hc]; exact List.mem_map_of_mem (f := (·.1)) hmem)
        exact hu t' j (by simp [AMap.find, this, hj]) ha

theorem inv_unsubscribed {s : State} (hi : Inv s) (a : Nat) (i : Info) (hm : (a, i) ∈ s.subs) :
    ∃ s', unsubscribed s a i = .ok s' ∧ Inv s' ∧ s'.subs = s.subs.erase (a, i) ∧ s'.next = s.next := by
  obtain ⟨pm, h1, h2⟩ := (hi.subs a i).1 hm
  have hu : ∀ t' j, pm.find t' = some j → j.addr = i.addr → j = i ∧ t' = i.ty := by
    intro t' j hj ha
    have ht := hi.ty a pm t' j h1 hj
    have := (hi.uniq a a j i ((hi.subs a j).2 ⟨pm, h1, by rw [ht]; exact hj⟩) hm ha).2
    exact ⟨this, by rw [← ht, this]⟩
  have hrem := removeFirst_eq (hi.inner a pm h1).2 i.ty i h2 hu
  have hdel : ∀ b x, (b, x) ∈ s.subs.erase (a, i) ↔ (b, x) ∈ s.subs ∧ (b, x) ≠ (a, i) := by
    intro b x
    rw [List.Nodup.mem_erase_iff hi.subsNodup]
    exact And.comm
  have frame : ∀ m : Nat', (∀ b, m.find b = if b = a then (if pm.erase i.ty = [] then none else some (pm.erase i.ty)) else s.nat.find b) →
      (keys m).Nodup → Inv { s with nat := m, subs := s.subs.erase (a, i) } := by
    intro m hfind hnd
    constructor
    · exact hnd
    · intro b q hq
      simp only at hq
      rw [hfind] at hq
      split at hq
      · split at hq
        · simp at hq
        · rename_i hne
          simp at hq; subst hq
          exact ⟨hne, keys_erase_nodup _ _ (hi.inner a pm h1).2⟩
      · exact hi.inner b q hq
    · intro b q t x hq hx
      simp only at hq
      rw [hfind] at hq
      split at hq
      · split at hq
        · simp at hq
        · simp at hq; subst hq
          rw [find_erase] at hx
          split at hx
          · simp at hx
          · exact hi.ty a pm t x h1 hx
      · exact hi.ty b q t x hq hx
    · intro b x
      simp only
      rw [hdel, hfind]
      by_cases hb : b = a
      · subst hb
        simp only [if_true]
        rw [hi.subs]
        constructor
        · rintro ⟨⟨q, k1, k2⟩, k3⟩
          rw [h1] at k1; simp at k1; subst k1
          have hne : x.ty ≠ i.ty := by
            intro hc
            rw [hc, h2] at k2; simp at k2; exact k3 (by rw [k2])
          have hf : (pm.erase i.ty).find x.ty = some x := by rw [find_erase, if_neg hne]; exact k2
          refine ⟨pm.erase i.ty, ?_, hf⟩
          rw [if_neg]
          intro hc; rw [hc] at hf; simp at hf
        · rintro ⟨q, k1, k2⟩
          split at k1
          · simp at k1
          · simp at k1; subst k1
            rw [find_erase] at k2
            split at k2
            · simp at k2
            · rename_i hne
              refine ⟨⟨pm, h1, k2⟩, ?_⟩
              intro hc; simp at hc; exact hne (by rw [hc])
      · simp only [hb, if_false]
        rw [hi.subs]
        constructor
        · exact fun h => h.1
        · intro h; exact ⟨h, by intro hc; simp at hc; exact hb hc.1⟩
    · exact hi.subsNodup.erase _
    · intro b x h; exact hi.fresh b x ((hdel b x).1 h).1
    · intro b c x y hx hy he; exact hi.uniq b c x y ((hdel b x).1 hx).1 ((hdel c y).1 hy).1 he
  unfold unsubscribed remove
  rw [h1]
  simp only
  rw [hrem]
  by_cases he : pm.erase i.ty = []
  · rw [if_pos he]
    refine ⟨_, rfl, frame _ ?_ (keys_erase_nodup _ _ hi.nodup), rfl, rfl⟩
    intro b
    rw [find_erase]; simp [he]
  · rw [if_neg he]
    refine ⟨_, rfl, frame _ ?_ (keys_set_nodup _ _ _ hi.nodup), rfl, rfl⟩
    intro b
    rw [find_set]; simp [he]

theorem inv_empty : Inv State.empty := by
  constructor <;> simp [State.empty, keys]

theorem run_ok (ops : List Op) (s : State) (hi : Inv s) (hv : Valid s ops) :
    ∃ s' tr, run s ops = .ok (s', tr) ∧ Inv s' := by
  induction ops generalizing s with
  | nil => exact ⟨s, [], rfl, hi⟩
  | cons op ops ih =>
    obtain ⟨hop, hrest⟩ := hv
    have : ∃ s1 t1, step s op = .ok (s1, t1) ∧ Inv s1 := by
      cases op with
      | request a ty => exact ⟨_, _, rfl, inv_request hi a ty⟩
      | unsubscribed a i =>
        obtain ⟨s1, h1, h2, _⟩ := inv_unsubscribed hi a i hop
        exact ⟨s1, [], by simp [step, h1], h2⟩
    obtain ⟨s1, t1, h1, h2⟩ := this
    obtain ⟨s2, t2, h3, h4⟩ := ih s1 h2 (hrest s1 t1 h1)
    exact ⟨s2, t1 ++ t2, by simp [run, h1, h3], h4⟩

theorem request_addr {s : State} (hi : Inv s) (a ty : Nat) :
    getMapped (request s a ty).1.nat a ty = some (request s a ty).2 := by
  have hi' := inv_request hi a ty
  rw [getMapped_eq hi']
  unfold request build
  cases hm : getMapped s.nat a ty with
  | some x =>
    simp only [send]
    obtain ⟨i, h1, h2, h3⟩ := (getMapped_eq hi a ty x).1 hm
    exact ⟨i, by simpa using h1, h2, h3⟩
  | none => exact ⟨⟨s.next + 1, s.next, ty⟩, by simp [send], rfl, rfl⟩

/-- a request does not change the address of any other (actor, type) -/
theorem request_frame {s : State} (hi : Inv s) (a ty b t x : Nat) (h : getMapped s.nat b t = some x) :
    getMapped (request s a ty).1.nat b t = some x := by
  have hi' := inv_request hi a ty
  rw [getMapped_eq hi'] 
  obtain ⟨i, h1, h2, h3⟩ := (getMapped_eq hi b t x).1 h
  refine ⟨i, ?_, h2, h3⟩
  unfold request build
  cases hm : getMapped s.nat a ty with
  | some x => simpa [send] using h1
  | none => simp [send, h1]

theorem next_mono (ops : List Op) (s s' : State) (tr) (hi : Inv s) (hv : Valid s ops) (h : run s ops = .ok (s', tr)) :
    s.next ≤ s'.next ∧ (∀ e ∈ tr, e.2.2 < s'.next) := by
  induction ops generalizing s s' tr with
  | nil => simp only [run, Except.ok.injEq, Prod.mk.injEq] at h; obtain ⟨rfl, rfl⟩ := h; simp
  | cons op ops ih =>
    obtain ⟨hop, hrest⟩ := hv
    cases op with
    | request a ty =>
      simp only [run, step] at h
      cases hr : run (request s a ty).1 ops with
      | error e => simp [hr] at h
      | ok q =>
        obtain ⟨s2, t2⟩ := q
        rw [hr] at h
        simp only [Except.ok.injEq, Prod.mk.injEq] at h
        obtain ⟨rfl, rfl⟩ := h
        have hi1 := inv_request hi a ty
        obtain ⟨k1, k2⟩ := ih _ _ _ hi1 (hrest _ _ rfl) hr
        have hle : s.next ≤ (request s a ty).1.next := by
          unfold request build; cases getMapped s.nat a ty <;> simp [send]; omega
        obtain ⟨i, j1, _, j3⟩ := (getMapped_eq hi1 a ty _).1 (request_addr hi a ty)
        have := (hi1.fresh a i j1).1
        refine ⟨by omega, ?_⟩
        intro e he
        simp only [List.cons_append, List.nil_append, List.mem_cons] at he
        rcases he with rfl | he
        · simp only; omega
        · exact k2 e he
    | unsubscribed a i =>
      obtain ⟨s1, h1, h2, _, h4⟩ := inv_unsubscribed hi a i hop
      simp only [run, step, h1] at h
      cases hr : run s1 ops with
      | error e => simp [hr] at h
      | ok q =>
        obtain ⟨s2, t2⟩ := q
        rw [hr] at h
        simp only [Except.ok.injEq, Prod.mk.injEq, List.nil_append] at h
        obtain ⟨rfl, rfl⟩ := h
        obtain ⟨k1, k2⟩ := ih s1 _ _ h2 (hrest s1 [] (by simp [step, h1])) hr
        exact ⟨by omega, k2⟩

/-- later requests use an address that was not yet given out, or the one (actor, type) has now -/
theorem later_addr (ops : List Op) (s s' : State) (tr) (hi : Inv s) (hv : Valid s ops) (h : run s ops = .ok (s', tr)) :
    ∀ b t x, (b, t, x) ∈ tr → s.next ≤ x ∨ getMapped s.nat b t = some x := by
  induction ops generalizing s s' tr with
  | nil => simp only [run, Except.ok.injEq, Prod.mk.injEq] at h; obtain ⟨rfl, rfl⟩ := h; simp
  | cons op ops ih =>
    obtain ⟨hop, hrest⟩ := hv
    intro b t x hmem
    cases op with
    | request a ty =>
      simp only [run, step] at h
      cases hr : run (request s a ty).1 ops with
      | error e => simp [hr] at h
      | ok q =>
        obtain ⟨s2, t2⟩ := q
        rw [hr] at h
        simp only [Except.ok.injEq, Prod.mk.injEq] at h
        obtain ⟨rfl, rfl⟩ := h
        have hi1 := inv_request hi a ty
        have back : ∀ b t x, getMapped (request s a ty).1.nat b t = some x → s.next ≤ x ∨ getMapped s.nat b t = some x := by
          intro b t x hx
          obtain ⟨i, h1, h2, h3⟩ := (getMapped_eq hi1 b t x).1 hx
          rw [getMapped_eq hi]
          unfold request build at h1
          cases hm : getMapped s.nat a ty with
          | some y => rw [hm] at h1; exact .inr ⟨i, by simpa [send] using h1, h2, h3⟩
          | none =>
            rw [hm] at h1
            simp only [send, if_true, List.mem_append, List.mem_singleton, Prod.mk.injEq] at h1
            rcases h1 with h1 | ⟨_, rfl⟩
            · exact .inr ⟨i, h1, h2, h3⟩
            · simp only at h3; exact .inl (by omega)
        simp only [List.cons_append, List.nil_append, List.mem_cons, Prod.mk.injEq] at hmem
        rcases hmem with ⟨rfl, rfl, rfl⟩ | hmem
        · exact back _ _ _ (request_addr hi b t)
        · have hle : s.next ≤ (request s a ty).1.next := by
            unfold request build; cases getMapped s.nat a ty <;> simp [send]; omega
          rcases ih _ _ _ hi1 (hrest _ _ rfl) hr b t x hmem with k | k
          · exact .inl (by omega)
          · exact back _ _ _ k
    | unsubscribed a i =>
      obtain ⟨s1, h1, h2, h3, h4⟩ := inv_unsubscribed hi a i hop
      simp only [run, step, h1] at h
      cases hr : run s1 ops with
      | error e => simp [hr] at h
      | ok q =>
        obtain ⟨s2, t2⟩ := q
        rw [hr] at h
        simp only [Except.ok.injEq, Prod.mk.injEq, List.nil_append] at h
        obtain ⟨rfl, rfl⟩ := h
        rcases ih s1 _ _ h2 (hrest s1 [] (by simp [step, h1])) hr b t x hmem with k | k
        · exact .inl (by omega)
        · right
          obtain ⟨j, j1, j2, j3⟩ := (getMapped_eq h2 b t x).1 k
          rw [h3] at j1
          exact (getMapped_eq hi b t x).2 ⟨j, List.mem_of_mem_erase j1, j2, j3⟩

/-- **C44, private.** In every history of requests by any actors, with response handlers removed at
any time in between, no address is ever used for the responses of two different actors or of two
different response types. -/
theorem C44_private_addresses (ops : List Op) (hv : Valid State.empty ops) :
    ∃ s tr, run State.empty ops = .ok (s, tr) ∧
      ∀ a t b u x, (a, t, x) ∈ tr → (b, u, x) ∈ tr → a = b ∧ t = u := by
  have key : ∀ (ops : List Op) (s : State), Inv s → Valid s ops → ∃ s' tr, run s ops = .ok (s', tr) ∧
      ∀ a t b u x, (a, t, x) ∈ tr → (b, u, x) ∈ tr → a = b ∧ t = u := by
    intro ops
    induction ops with
    | nil => intro s hi hv; exact ⟨s, [], rfl, by simp⟩
    | cons op ops ih =>
      intro s hi hv
      have hv' := hv
      obtain ⟨hop, hrest⟩ := hv
      cases op with
      | request a ty =>
        have hi1 := inv_request hi a ty
        obtain ⟨s2, t2, h1, h2⟩ := ih _ hi1 (hrest _ _ rfl)
        refine ⟨s2, _, by simp only [run, step, h1]; rfl, ?_⟩
        have hnow := request_addr hi a ty
        obtain ⟨i, j1, j2, j3⟩ := (getMapped_eq hi1 a ty _).1 hnow
        have hlt := (hi1.fresh a i j1).1
        have hlater := later_addr ops _ _ _ hi1 (hrest _ _ rfl) h1
        have cross : ∀ b u, (b, u, (request s a ty).2) ∈ t2 → b = a ∧ u = ty := by
          intro b u hb
          rcases hlater b u _ hb with k | k
          · omega
          · obtain ⟨j, l1, l2, l3⟩ := (getMapped_eq hi1 b u _).1 k
            obtain ⟨rfl, rfl⟩ := hi1.uniq b a j i l1 j1 (by omega)
            exact ⟨rfl, by rw [← l2, j2]⟩
        intro b t c u x hb hc
        simp only [List.cons_append, List.nil_append, List.mem_cons, Prod.mk.injEq] at hb hc
        rcases hb with ⟨rfl, rfl, rfl⟩ | hb <;> rcases hc with ⟨rfl, rfl, hx⟩ | hc
        · exact ⟨rfl, rfl⟩
        · obtain ⟨rfl, rfl⟩ := cross c u hc; exact ⟨rfl, rfl⟩
        · subst hx; obtain ⟨rfl, rfl⟩ := cross b t hb; exact ⟨rfl, rfl⟩
        · exact h2 b t c u x hb hc
      | unsubscribed a i =>
        obtain ⟨s1, h1, h2, _⟩ := inv_unsubscribed hi a i hop
        obtain ⟨s2, t2, h3, h4⟩ := ih s1 h2 (hrest s1 [] (by simp [step, h1]))
        exact ⟨s2, t2, by simp [run, step, h1, h3], h4⟩
  exact key ops State.empty inv_empty hv

/-- **C44, stable.** Once an actor has a response address for a type, it keeps it through every
history that does not remove that very subscription: a later request uses the same address. -/
theorem C44_stable_address (pre mid : List Op) (hv : Valid State.empty pre) (a ty : Nat) (s : State) (tr)
    (h : run State.empty pre = .ok (s, tr)) (hvm : Valid (request s a ty).1 mid)
    (hmid : ∀ i, Op.unsubscribed a i ∈ mid → i.ty ≠ ty) :
    ∃ s' tr', run (request s a ty).1 mid = .ok (s', tr') ∧ (request s' a ty).2 = (request s a ty).2 := by
  obtain ⟨s0, tr0, h0, hi⟩ := run_ok pre State.empty inv_empty hv
  rw [h] at h0
  simp only [Except.ok.injEq, Prod.mk.injEq] at h0
  obtain ⟨rfl, rfl⟩ := h0
  have key : ∀ (mid : List Op) (s1 : State) (x : Nat), Inv s1 → Valid s1 mid → (∀ i, Op.unsubscribed a i ∈ mid → i.ty ≠ ty) →
      getMapped s1.nat a ty = some x → ∃ s' tr', run s1 mid = .ok (s', tr') ∧ getMapped s'.nat a ty = some x := by
    intro mid
    induction mid with
    | nil => intro s1 x _ _ _ hx; exact ⟨s1, [], rfl, hx⟩
    | cons op mid ih =>
      intro s1 x hi1 hv1 hm hx
      obtain ⟨hop, hrest⟩ := hv1
      cases op with
      | request b t =>
        obtain ⟨s2, t2, h1, h2⟩ := ih _ x (inv_request hi1 b t) (hrest _ _ rfl) (fun i hi' => hm i (by simp [hi'])) (request_frame hi1 b t a ty x hx)
        exact ⟨s2, _, by simp only [run, step, h1]; rfl, h2⟩
      | unsubscribed b i =>
        obtain ⟨s2, h1, h2, h3, h4⟩ := inv_unsubscribed hi1 b i hop
        have hx2 : getMapped s2.nat a ty = some x := by
          obtain ⟨j, j1, j2, j3⟩ := (getMapped_eq hi1 a ty x).1 hx
          refine (getMapped_eq h2 a ty x).2 ⟨j, ?_, j2, j3⟩
          rw [h3, List.Nodup.mem_erase_iff hi1.subsNodup]
          refine ⟨?_, j1⟩
          intro hc
          simp only [Prod.mk.injEq] at hc
          obtain ⟨rfl, rfl⟩ := hc
          exact hm j (by simp) j2
        obtain ⟨s3, t3, h5, h6⟩ := ih s2 x h2 (hrest s2 [] (by simp [step, h1])) (fun i hi' => hm i (by simp [hi'])) hx2
        exact ⟨s3, t3, by simp [run, step, h1, h5], h6⟩
  obtain ⟨s', tr', h1, h2⟩ := key mid _ _ (inv_request hi a ty) hvm hmid (request_addr hi a ty)
  refine ⟨s', tr', h1, ?_⟩
  change (build s' a ty).2.addr = _
  unfold build
  rw [h2]

/-- **C44, no residue.** After every history the supervisor knows a response subscription for an actor
exactly if it still holds one, the ones it would undo for an actor that is down
(`each_subscription`) are exactly those it holds for it, one per response type, and removing one of
them disturbs no other. -/
theorem C44_cleanup_exact (ops : List Op) (hv : Valid State.empty ops) :
    ∃ s tr, run State.empty ops = .ok (s, tr) ∧
      (∀ a, hasSubscriptions s.nat a = true ↔ ∃ i, (a, i) ∈ s.subs) ∧
      (s.nat = [] ↔ s.subs = []) ∧
      (∀ a i, i ∈ eachSubscription s a ↔ (a, i) ∈ s.subs) ∧
      (∀ a i j, (a, i) ∈ s.subs → (a, j) ∈ s.subs → i.ty = j.ty → i = j) ∧
      (∀ a i, (a, i) ∈ s.subs → ∃ s', unsubscribed s a i = .ok s' ∧
        ∀ b j, (b, j) ∈ s'.subs ↔ (b, j) ∈ s.subs ∧ (b, j) ≠ (a, i)) := by
  obtain ⟨s, tr, h, hi⟩ := run_ok ops State.empty inv_empty hv
  have hhas : ∀ a, hasSubscriptions s.nat a = true ↔ ∃ i, (a, i) ∈ s.subs := by
    intro a
    unfold hasSubscriptions
    constructor
    · intro hs
      cases hf : s.nat.find a with
      | none => rw [hf] at hs; simp at hs
      | some pm =>
        obtain ⟨hne, hnd⟩ := hi.inner a pm hf
        cases pm with
        | nil => exact absurd rfl hne
        | cons e r =>
          obtain ⟨k, i⟩ := e
          have hk : find ((k, i) :: r : AMap Nat Info) k = some i := by simp [find]
          have := hi.ty a _ k i hf hk
          exact ⟨i, (hi.subs a i).2 ⟨_, hf, by rw [this]; exact hk⟩⟩
    · rintro ⟨i, hm⟩
      obtain ⟨pm, h1, _⟩ := (hi.subs a i).1 hm
      rw [h1]; rfl
  refine ⟨s, tr, h, hhas, ?_, ?_, ?_, ?_⟩
  · constructor
    · intro hn
      cases hs : s.subs with
      | nil => rfl
      | cons e r =>
        obtain ⟨a, i⟩ := e
        have := (hhas a).2 ⟨i, by simp [hs]⟩
        rw [hn] at this; simp [hasSubscriptions] at this
    · intro hs
      apply eq_nil_of_find
      intro a
      cases hf : s.nat.find a with
      | none => rfl
      | some pm =>
        have := (hhas a).1 (by simp [hasSubscriptions, hf])
        obtain ⟨i, hm⟩ := this
        rw [hs] at hm; simp at hm
  · intro a i
    unfold eachSubscription
    rw [hi.subs]
    cases hf : s.nat.find a with
    | none => simp
    | some pm =>
      simp only [Option.getD_some, List.mem_map, Option.some.injEq, exists_eq_left']
      obtain ⟨_, hnd⟩ := hi.inner a pm hf
      constructor
      · rintro ⟨⟨k, j⟩, h1, rfl⟩
        have hk := find_of_mem hnd h1
        have := hi.ty a pm k j hf hk
        simp only [this]; exact hk
      · intro hm
        exact ⟨(i.ty, i), mem_of_find hm, rfl⟩
  · intro a i j h1 h2 ht
    obtain ⟨pm, k1, k2⟩ := (hi.subs a i).1 h1
    obtain ⟨pm', l1, l2⟩ := (hi.subs a j).1 h2
    rw [k1] at l1; simp at l1; subst l1
    rw [ht, l2] at k2; simpa using k2.symm
  · intro a i hm
    obtain ⟨s', h1, _, h3, _⟩ := inv_unsubscribed hi a i hm
    refine ⟨s', h1, ?_⟩
    intro b j
    rw [h3, List.Nodup.mem_erase_iff hi.subsNodup]; exact And.comm

/-- two actors, two types; one of the handlers is removed and the actor asks again -/
def exOps : List Op := [.request 7 1, .request 8 1, .request 7 2, .request 7 1, .unsubscribed 7 ⟨1, 0, 1⟩, .request 7 1]

example : Valid State.empty exOps ∧ ∃ s, run State.empty exOps =
    .ok (s, [(7, 1, 0), (8, 1, 2), (7, 2, 4), (7, 1, 0), (7, 1, 6)]) := by
  constructor
  · simp [exOps, Valid, step, request, build, send, getMapped, AMap.find, AMap.set, set, State.empty]
  · exact ⟨_, rfl⟩

/-- The code relies on a request being sent as soon as it is built.  If an actor builds two requests
of one type before sending them, it gets two response addresses for this type, the second one is
unknown to the mapping, and once the actor is gone the removal of the second subscription (when the
supervisor shuts down) terminates the program. -/
theorem C44_two_builders_counterexample :
    ∃ s1 s2 b1 b2 s3 s4 i1 i2, build State.empty 7 1 = (s1, b1) ∧ build s1 7 1 = (s2, b2) ∧ b1.addr ≠ b2.addr ∧
      send s2 b1 = s3 ∧ send s3 b2 = s4 ∧ s4.subs = [(7, i1), (7, i2)] ∧ i1.ty = i2.ty ∧
      eachSubscription s4 7 = [i1] ∧
      ∃ s5, unsubscribed s4 7 i1 = .ok s5 ∧ s5.subs = [(7, i2)] ∧ unsubscribed s5 7 i2 = .error .terminate := by
  refine ⟨_, _, _, _, _, _, _, _, rfl, rfl, by decide, rfl, rfl, rfl, rfl, rfl, _, rfl, rfl, rfl⟩

end Verif.AddressMapping
