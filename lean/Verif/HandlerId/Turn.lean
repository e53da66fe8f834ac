import Verif.HandlerId.Props
/-!
# Handling what was unsubscribed never fails

`lifetime_plugin_t::handle_unsubscription` (`lifetime.cpp:110-128`) looks the subscription up by comparison and uses what it finds without a check.
Whatever is subscribed and unsubscribed in whatever order - alike handlers, the same handler twice - it finds something.
-/

namespace Verif.HandlerId

/-- an unsubscription of the lifetime plugin for a kind of handler -/
def asks (k : Nat × Sig × Nat) : Msg → Bool
  | .unsub p => decide (p.tag = .anon ∧ key p = k)
  | .sub _ => false

/-- a subscription of this kind, that is being undone -/
def undone (k : Nat × Sig × Nat) (m : List Info) (i : Info) : Bool := decide (key i = k ∧ i ∈ m)

/-- for every message there is an entry -/
structure W (s : State) : Prop where
  le : ∀ k, s.queue.countP (asks k) ≤ (s.points k.2.2).countP (undone k s.marked)
  objs : s.table.Pairwise (fun i j => i.h.obj ≠ j.h.obj)

theorem w_init : W State.init := ⟨fun k => by simp [State.init], by simp [State.init]⟩

theorem count_grow {k : Nat × Sig × Nat} {m m' : List Info} (h : ∀ x, x ∈ m → x ∈ m') (l : List Info) : l.countP (undone k m) ≤ l.countP (undone k m') :=
  List.countP_mono_left (fun x _ hx => by simp only [undone, decide_eq_true_eq] at hx ⊢; exact ⟨hx.1, h x hx.2⟩)

/-- marking one that is there and not marked -/
theorem count_mark {k : Nat × Sig × Nat} {m : List Info} {i : Info} (hk : key i = k) (hm : i ∉ m) : ∀ {l : List Info}, i ∈ l →
    l.countP (undone k m) + 1 ≤ l.countP (undone k (i :: m))
  | [], h => by cases h
  | x :: l, h => by
    simp only [List.countP_cons]
    by_cases hx : x = i
    · subst hx
      have h1 := count_grow (k := k) (m := m) (m' := x :: m) (fun y hy => List.mem_cons_of_mem _ hy) l
      have h2 : undone k m x = false := by simp [undone, hm]
      have h3 : undone k (x :: m) x = true := by simp [undone, hk]
      simp only [h2, h3, if_true]
      simp only [Bool.false_eq_true, if_false]
      omega
    · have hl : i ∈ l := by rcases List.mem_cons.1 h with h | h; · exact absurd h.symm hx
                            · exact h
      have h1 := count_mark hk hm hl
      have h2 : undone k (i :: m) x = undone k m x := by simp [undone, hx]
      rw [h2]; omega

theorem count_eraseP {f g : Info → Bool} : ∀ (l : List Info), l.countP f ≤ (l.eraseP g).countP f + 1
  | [] => by simp
  | x :: l => by
    simp only [List.eraseP_cons]
    cases hg : g x with
    | true => simp only [cond_true, List.countP_cons]; split <;> omega
    | false =>
      have := count_eraseP (f := f) (g := g) l
      simp only [cond_false, List.countP_cons]; omega

theorem count_eraseP_ne {f g : Info → Bool} (h : ∀ x, g x = true → f x = false) : ∀ (l : List Info), (l.eraseP g).countP f = l.countP f
  | [] => by simp
  | x :: l => by
    simp only [List.eraseP_cons]
    cases hg : g x with
    | true => simp only [cond_true, List.countP_cons, h x hg]; simp
    | false =>
      have := count_eraseP_ne h l
      simp only [cond_false, List.countP_cons, this]

theorem count_erase (k : Nat × Sig × Nat) (m : List Info) (p : Info) (l : List Info) :
    l.countP (undone k m) ≤ (eraseLast p l).countP (undone k m) + (if key p = k then 1 else 0) := by
  unfold eraseLast
  rw [List.countP_reverse]
  split
  · have := count_eraseP (f := undone k m) (g := samePoint p) l.reverse
    rw [List.countP_reverse] at this; exact this
  · rename_i hk
    rw [count_eraseP_ne (f := undone k m) (g := samePoint p), List.countP_reverse]
    · omega
    · intro x hx
      have := (samePoint_iff _ _).1 hx
      simp only [undone, decide_eq_false_iff_not]
      intro h
      exact hk (this.trans h.1)

theorem w_subscribe {s : State} {i : Info} (hi : Inv0 s) (h : W s) (hobj : i.h.obj = s.next) : W (subscribe i s) := by
  refine ⟨fun k => ?_, ?_⟩
  · have := h.le k
    simp only [subscribe, List.countP_append, List.countP_singleton, asks]
    simp only [Bool.false_eq_true, if_false, Nat.add_zero]
    refine Nat.le_trans this ?_
    by_cases ha : k.2.2 = i.h.actor
    · rw [ha, upd_same, List.countP_append]; omega
    · rw [upd_other _ _ ha]; exact Nat.le_refl _
  · simp only [subscribe]
    rw [List.pairwise_append]
    refine ⟨h.objs, by simp, fun x hx y hy => ?_⟩
    simp only [List.mem_singleton] at hy
    subst hy
    have := hi.small x hx
    omega

theorem w_unsubInfo {s : State} {i : Info} (h : W s) (hp : i ∈ s.points i.h.actor) : W (unsubInfo i s) := by
  unfold unsubInfo
  split
  · exact h
  · rename_i hm
    refine ⟨fun k => ?_, h.objs⟩
    have h1 := h.le k
    simp only [List.countP_append, List.countP_singleton]
    by_cases hk : key i = k
    · have h2 := count_mark hk hm (l := s.points k.2.2) (by rw [← hk]; exact hp)
      split <;> omega
    · have h2 := count_grow (k := k) (m := s.marked) (m' := i :: s.marked) (fun y hy => List.mem_cons_of_mem _ hy) (s.points k.2.2)
      have h3 : asks k (.unsub i) = false := by simp [asks, hk]
      simp only [h3, Bool.false_eq_true, if_false]
      omega

theorem forget_objs {s : State} (i : Info) (h : s.table.Pairwise (fun i j => i.h.obj ≠ j.h.obj)) :
    (forget i s).table.Pairwise (fun i j => i.h.obj ≠ j.h.obj) := List.Pairwise.filter _ h

/-- the next message can be handled, and leaves everything in order -/
theorem w_handle {s : State} {m : Msg} {q : List Msg} (h : W s) (hq : s.queue = m :: q) : ∃ s', handle m { s with queue := q } = some s' ∧ W s' := by
  have hle : ∀ k, q.countP (asks k) + (if asks k m then 1 else 0) ≤ (s.points k.2.2).countP (undone k s.marked) := by
    intro k
    have := h.le k
    rw [hq, List.countP_cons] at this
    exact this
  cases m with
  | sub p => exact ⟨_, rfl, ⟨fun k => Nat.le_trans (Nat.le_add_right _ _) (hle k), h.objs⟩⟩
  | unsub p =>
    unfold handle
    simp only
    split
    · rename_i i hf
      exact ⟨_, rfl, ⟨fun k => Nat.le_trans (Nat.le_add_right _ _) (hle k), forget_objs i h.objs⟩⟩
    · split
      · exact ⟨_, rfl, ⟨fun k => Nat.le_trans (Nat.le_add_right _ _) (hle k), h.objs⟩⟩
      · rename_i ht
        have h1 := hle (key p)
        have h2 : asks (key p) (.unsub p) = true := by simp [asks, ht]
        rw [h2, if_pos rfl] at h1
        have h3 : 0 < (s.points p.h.actor).countP (undone (key p) s.marked) := by
          have : (key p).2.2 = p.h.actor := rfl
          rw [this] at h1; omega
        obtain ⟨x, hx, hu⟩ := List.countP_pos_iff.1 h3
        simp only [undone, decide_eq_true_eq] at hu
        cases hf : findLast p (s.points p.h.actor) with
        | none =>
          exfalso
          unfold findLast at hf
          rw [List.find?_eq_none] at hf
          exact hf x (List.mem_reverse.2 hx) ((samePoint_iff _ _).2 hu.1.symm)
        | some i =>
          refine ⟨_, rfl, ⟨fun k => ?_, forget_objs i h.objs⟩⟩
          have h4 := hle k
          simp only [forget]
          by_cases ha : k.2.2 = p.h.actor
          · rw [ha, upd_same]
            rw [ha] at h4
            have h5 := count_erase k s.marked p (s.points p.h.actor)
            by_cases hk : key p = k
            · rw [if_pos hk] at h5
              have : asks k (.unsub p) = true := by simp [asks, ht, hk]
              rw [this, if_pos rfl] at h4
              omega
            · rw [if_neg hk] at h5
              omega
          · rw [upd_other _ _ ha]
            omega

theorem w_step {c : Cfg} {s s' : State} {op : Op} (hi : Inv0 s) (h : W s) (e : step c s op = some s') : W s' := by
  have hpt : ∀ {life addr : Nat} {x : Handler} {t : State}, unsubPoint life x addr s = some t → W t := by
    intro life addr x t he
    unfold unsubPoint at he
    split at he
    · cases he
    · rename_i i hf
      cases he
      have h1 := findLast_mem hf
      have h2 := (hi.pSmall _ i h1).2.1
      exact w_unsubInfo h (by rw [h2]; exact h1)
  cases op with
  | subAnon a b ty addr => cases e; exact w_subscribe hi h rfl
  | subActor a b ty addr =>
    simp only [step, subActor] at e
    split at e
    · cases e
      have := w_subscribe (i := ⟨⟨s.next, a, b, ty⟩, addr, .plugin⟩) hi h rfl
      exact ⟨this.le, this.objs⟩
    · cases e
  | unsubObj x => exact hpt e
  | unsubName a b ty addr =>
    simp only [step, unsubName, Option.map_eq_some_iff] at e
    obtain ⟨t, h1, rfl⟩ := e
    have := hpt h1
    exact ⟨this.le, this.objs⟩
  | turn =>
    simp only [step] at e
    cases hq : s.queue with
    | nil => rw [hq] at e; cases e; exact h
    | cons m q =>
      rw [hq] at e
      obtain ⟨t, h1, h2⟩ := w_handle h hq
      simp only [h1] at e
      cases e; exact h2

theorem w_run {c : Cfg} (ops : List Op) : ∀ {s s' : State}, Inv0 s → W s → run c s ops = some s' → W s' := by
  induction ops with
  | nil => intro s s' _ h e; cases e; exact h
  | cons op ops ih =>
    intro s s' hi h e
    simp only [run] at e
    split at e
    · cases e
    · rename_i h1
      exact ih (inv0_step hi h1) (w_step hi h h1) e

/-- C63: whatever has been subscribed and unsubscribed before, in whatever order and how often - also handlers the library cannot tell apart, also the
same handler twice -, the handling of a subscription message never fails, and takes at most one subscription away. -/
theorem C63_handled (c : Cfg) (ops : List Op) (s : State) (h : run c State.init ops = some s) :
    ∃ s', step c s .turn = some s' ∧ s'.table.Sublist s.table ∧ s.table.length ≤ s'.table.length + 1 := by
  have hw := w_run ops inv0_init w_init h
  simp only [step]
  cases hq : s.queue with
  | nil => exact ⟨s, rfl, List.Sublist.refl _, by omega⟩
  | cons m q =>
    obtain ⟨t, h1, -⟩ := w_handle hw hq
    refine ⟨t, h1, ?_⟩
    have hf : ∀ (i : Info), (forget i { s with queue := q }).table.Sublist s.table ∧ s.table.length ≤ (forget i { s with queue := q }).table.length + 1 := by
      intro i
      refine ⟨List.filter_sublist, ?_⟩
      have : ∀ l : List Info, l.Pairwise (fun i j => i.h.obj ≠ j.h.obj) →
          l.length ≤ (l.filter (fun j => !(decide (j.addr = i.addr) && decide (j.h.obj = i.h.obj)))).length + 1 := by
        intro l
        induction l with
        | nil => simp
        | cons x l ih =>
          intro hp
          rw [List.pairwise_cons] at hp
          simp only [List.filter_cons]
          split
          · have := ih hp.2; simp only [List.length_cons]; omega
          · rename_i hx
            have hx : x.addr = i.addr ∧ x.h.obj = i.h.obj := by simpa using hx
            have : l.filter (fun j => !(decide (j.addr = i.addr) && decide (j.h.obj = i.h.obj))) = l := by
              rw [List.filter_eq_self]
              intro y hy
              have := hp.1 y hy
              have : ¬ y.h.obj = i.h.obj := fun h => this (hx.2.trans h.symm)
              simp [this]
            rw [this]; simp
      exact this _ hw.objs
    cases m with
    | sub p => cases h1; exact ⟨List.Sublist.refl _, by simp⟩
    | unsub p =>
      unfold handle at h1
      simp only at h1
      split at h1
      · cases h1; exact hf _
      · split at h1
        · cases h1; exact ⟨List.Sublist.refl _, by simp⟩
        · split at h1
          · cases h1
          · cases h1; exact hf _

/-- two alike handlers, one of them of the starter, unsubscribed twice each: everything is handled -/
example : ∃ s, run cfg State.init [.subActor 1 (.method 0 0) 5 11, .turn, .subAnon 1 (.method 0 1) 5 11, .turn, .unsubObj ⟨1, 1, .method 0 1, 5⟩,
    .unsubObj ⟨0, 1, .method 0 0, 5⟩, .turn, .unsubObj ⟨0, 1, .method 0 0, 5⟩, .turn] = some s ∧ s.queue = [] := ⟨_, rfl, rfl⟩

end Verif.HandlerId
