import Verif.ExtendedError.Spec

/-! # Property C45: error chains report the root cause -/

namespace Verif.ExtendedError

/-- object `id` of the heap represents the levels `ls` -/
inductive Repr (h : Heap) : Nat → List Level → Prop where
  | leaf (id : Nat) (l : Level) : h[id]? = some ⟨l.context, l.ec, l.ecText, none, l.request⟩ → Repr h id [l]
  | node (id n : Nat) (l : Level) (ls : List Level) :
      h[id]? = some ⟨l.context, l.ec, l.ecText, some n, l.request⟩ → Repr h n ls → Repr h id (l :: ls)

theorem Repr.mono {h : Heap} {id : Nat} {ls : List Level} (r : Repr h id ls) (o : Obj) : Repr (h ++ [o]) id ls := by
  induction r with
  | leaf id l hl =>
    refine .leaf id l ?_
    have := (List.getElem?_eq_some_iff.1 hl).1
    rw [List.getElem?_append_left this]; exact hl
  | node id n l ls hl _ ih =>
    refine .node id n l ls ?_ ih
    have := (List.getElem?_eq_some_iff.1 hl).1
    rw [List.getElem?_append_left this]; exact hl

/-- the heap represents all the errors made -/
def Rel (h : Heap) (es : List (List Level)) : Prop :=
  h.length = es.length ∧ ∀ (id : Nat) ls, es[id]? = some ls → Repr h id ls

theorem rel_exec (ops : List Op) (h : Heap) (es es' : List (List Level)) (hr : Rel h es) (hm : made es ops = some es') :
    Rel (exec h ops) es' := by
  induction ops generalizing h es with
  | nil => simp only [made, Option.some.injEq] at hm; subst hm; exact hr
  | cons op ops ih =>
    have step : ∀ (o : Obj) (ls : List Level), Repr (h ++ [o]) h.length ls → Rel (make h o).1 (es ++ [ls]) := by
      intro o ls hrep
      refine ⟨by simp [make, hr.1], ?_⟩
      intro id ls' hid
      simp only [make]
      by_cases hlt : id < es.length
      · rw [List.getElem?_append_left hlt] at hid
        exact (hr.2 id ls' hid).mono o
      · rw [List.getElem?_append_right (by omega)] at hid
        have : id - es.length = 0 := by
          cases hk : id - es.length with
          | zero => rfl
          | succ k => rw [hk] at hid; simp at hid
        have hid' : id = h.length := by have := hr.1; omega
        rw [this] at hid
        simp only [List.getElem?_cons_zero, Option.some.injEq] at hid
        subst hid; subst hid'; exact hrep
    cases op with
    | fresh l => exact ih _ _ (step _ _ (.leaf _ l (by simp))) hm
    | wrap l n =>
      simp only [made] at hm
      cases hn : es[n]? with
      | none => simp [hn] at hm
      | some inner =>
        rw [hn] at hm
        exact ih _ _ (step _ _ (.node _ n l inner (by simp) ((hr.2 n inner hn).mono _))) hm

theorem rel_nil : Rel [] [] := ⟨rfl, by intro id ls h; simp at h⟩

theorem Repr.ne_nil {h : Heap} {id : Nat} {ls : List Level} (r : Repr h id ls) : ls ≠ [] := by
  cases r <;> simp

/-- the innermost object of a chain -/
theorem Repr.rootLoop {h : Heap} {id : Nat} {ls : List Level} (r : Repr h id ls) :
    ∃ rid l, rootLoop h ls.length id = some rid ∧ ls.getLast? = some l ∧ Repr h rid [l] := by
  induction r with
  | leaf id l hl => exact ⟨id, l, by simp [Verif.ExtendedError.rootLoop, hl], rfl, .leaf id l hl⟩
  | node id n l ls hl hr ih =>
    obtain ⟨rid, l', h1, h2, h3⟩ := ih
    refine ⟨rid, l', by simp [Verif.ExtendedError.rootLoop, hl, h1], ?_, h3⟩
    have := hr.ne_nil
    cases ls with
    | nil => exact absurd rfl this
    | cons a b => simpa using h2

theorem rootLoop_fuel (h : Heap) (f id r : Nat) (hr : rootLoop h f id = some r) (g : Nat) (hg : f ≤ g) :
    rootLoop h g id = some r := by
  induction f generalizing g id with
  | zero => simp [rootLoop] at hr
  | succ f ih =>
    cases g with
    | zero => omega
    | succ g =>
      simp only [rootLoop] at hr ⊢
      split at hr
      · simp at hr
      · split at hr
        · exact hr
        · exact ih _ hr g (by omega)

theorem message_fuel (h : Heap) (s : Bool) (f id : Nat) (t : String) (hr : message h s f id = some t) (g : Nat) (hg : f ≤ g) :
    message h s g id = some t := by
  induction f generalizing g id t s with
  | zero => simp [message] at hr
  | succ f ih =>
    cases g with
    | zero => omega
    | succ g =>
      simp only [message] at hr ⊢
      cases ho : h[id]? with
      | none => simp [ho] at hr
      | some o =>
        rw [ho] at hr
        simp only at hr ⊢
        cases hn : o.next with
        | none => rw [hn] at hr; exact hr
        | some n =>
          rw [hn] at hr
          simp only at hr ⊢
          cases hm : message h false f n with
          | none => simp [hm] at hr
          | some t' => rw [ih false n t' hm g (by omega)]; rw [hm] at hr; exact hr

theorem Repr.message {h : Heap} {id : Nat} {ls : List Level} (r : Repr h id ls) :
    message h false ls.length id = some (render ls) := by
  induction r with
  | leaf id l hl => cases hreq : l.request <;> simp [Verif.ExtendedError.message, hl, render, Level.text, hreq]
  | node id n l ls hl hr ih =>
    have := hr.ne_nil
    cases ls with
    | nil => exact absurd rfl this
    | cons a b =>
      simp only [List.length_cons, Verif.ExtendedError.message, hl] at ih ⊢
      rw [ih]
      cases hreq : l.request <;> simp [render, Level.text]

/-- **C45.** For every history of `make_error` calls (fresh errors and errors wrapping earlier ones)
and every error made: `root()` terminates and returns an error whose content is that of the innermost
level; `message()` terminates and reads the levels from the outermost to the innermost. -/
theorem C45_root_and_message (ops : List Op) (es : List (List Level)) (hm : made [] ops = some es)
    (id : Nat) (ls : List Level) (hid : es[id]? = some ls) :
    ∃ fuel, ∀ f ≥ fuel,
      (∃ rid o l, root (exec [] ops) f id = some rid ∧ (exec [] ops)[rid]? = some o ∧
        ls.getLast? = some l ∧ o.next = none ∧ o.context = l.context ∧ o.ec = l.ec ∧ es[rid]? = some [l]) ∧
      message (exec [] ops) false f id = some (render ls) := by
  have hrel := rel_exec ops [] [] es rel_nil hm
  have hr := hrel.2 id ls hid
  refine ⟨ls.length, fun f hf => ⟨?_, message_fuel _ _ _ _ _ hr.message _ hf⟩⟩
  obtain ⟨rid, l, h1, h2, h3⟩ := hr.rootLoop
  have hes : es[rid]? = some [l] := by
    have hlt : rid < es.length := by
      cases h3 with
      | leaf _ _ hl => rw [← hrel.1]; exact (List.getElem?_eq_some_iff.1 hl).1
      | node _ _ _ _ hl hr => exact absurd rfl hr.ne_nil
    have hsome : es[rid]? = some es[rid] := List.getElem?_eq_getElem hlt
    have hr' := hrel.2 rid _ hsome
    rw [hsome]
    cases h3 with
    | node _ _ _ _ _ hr => exact absurd rfl hr.ne_nil
    | leaf _ _ hl =>
      generalize es[rid] = x at hr'
      cases hr' with
      | leaf _ l' hl' =>
        rw [hl] at hl'
        simp only [Option.some.injEq, Obj.mk.injEq, true_and] at hl'
        obtain ⟨a, b, c, d⟩ := hl'
        cases l; cases l'; simp_all
      | node _ _ _ _ hl' _ => rw [hl] at hl'; simp at hl'
  cases h3 with
  | node _ _ _ _ _ hr => exact absurd rfl hr.ne_nil
  | leaf _ _ hl =>
    refine ⟨rid, _, l, ?_, hl, h2, rfl, rfl, rfl, hes⟩
    unfold root
    cases hr with
    | leaf _ l' hl' =>
      have : rootLoop (exec [] ops) 1 id = some id := by simp [rootLoop, hl']
      rw [hl']; simp only
      have h1' : rootLoop (exec [] ops) ([l'] : List Level).length id = some rid := h1
      simp only [List.length_cons, List.length_nil, Nat.zero_add] at h1'
      rw [this] at h1'; exact h1'
    | node _ n l' ls' hl' hr' =>
      rw [hl']; simp only
      simp only [List.length_cons, rootLoop, hl'] at h1
      exact rootLoop_fuel _ _ _ _ h1 _ (by simp at hf; omega)

/-- **C45, wrapping.** Wrapping an error does not change the root: the wrapper has the same root
error as what it wraps, and all errors made before read as before. -/
theorem C45_wrapping_keeps_root (ops : List Op) (es : List (List Level)) (hm : made [] ops = some es)
    (l : Level) (n : Nat) (hn : n < es.length) :
    ∃ fuel, ∀ f ≥ fuel,
      root (exec [] (ops ++ [.wrap l n])) f es.length = root (exec [] ops) f n ∧
      (root (exec [] ops) f n).isSome ∧
      ∀ id, id < es.length → ∃ fuel', ∀ g ≥ fuel', message (exec [] (ops ++ [.wrap l n])) false g id = message (exec [] ops) false g id := by
  have happ : ∀ (a b : List Op) (h : Heap), exec h (a ++ b) = exec (exec h a) b := by
    intro a b
    induction a with
    | nil => intro h; rfl
    | cons o a iha => intro h; cases o <;> exact iha _
  have hrel := rel_exec ops [] [] es rel_nil hm
  have hsome : es[n]? = some es[n] := List.getElem?_eq_getElem hn
  have hr := hrel.2 n _ hsome
  have hheap : exec [] (ops ++ [.wrap l n]) = exec [] ops ++ [⟨l.context, l.ec, l.ecText, some n, l.request⟩] := by
    rw [happ]; rfl
  have hr2 := hr.mono ⟨l.context, l.ec, l.ecText, some n, l.request⟩
  obtain ⟨rid, lx, h1, h2, h3⟩ := hr.rootLoop
  obtain ⟨rid2, lx2, k1, k2, k3⟩ := hr2.rootLoop
  have mono : ∀ (h : Heap) (o : Obj) (f id r : Nat), rootLoop h f id = some r → rootLoop (h ++ [o]) f id = some r := by
    intro h o f
    induction f with
    | zero => intro id r hh; simp [rootLoop] at hh
    | succ f ih =>
      intro id r hh
      simp only [rootLoop] at hh ⊢
      cases hi : h[id]? with
      | none => simp [hi] at hh
      | some x =>
        have := (List.getElem?_eq_some_iff.1 hi).1
        rw [List.getElem?_append_left this, hi]
        rw [hi] at hh
        simp only at hh ⊢
        cases hx : x.next with
        | none => rw [hx] at hh; exact hh
        | some m => rw [hx] at hh; exact ih _ _ hh
  have hroot : ∀ f ≥ es[n].length, root (exec [] ops) f n = some rid := by
    intro f hf
    revert hr h1 hf
    generalize es[n] = ls
    intro hr h1 hf
    unfold root
    cases hr with
    | leaf _ l' hl' =>
      rw [hl']; simp only
      simp only [List.length_cons, List.length_nil, Nat.zero_add, rootLoop, hl'] at h1
      exact h1
    | node _ m l' ls' hl' hr' =>
      rw [hl']; simp only
      simp only [List.length_cons, rootLoop, hl'] at h1
      exact rootLoop_fuel _ _ _ _ h1 _ (by simp at hf; omega)
  refine ⟨es[n].length, fun f hf => ⟨?_, by rw [hroot f hf]; rfl, ?_⟩⟩
  · rw [hroot f hf, hheap]
    unfold root
    have hlen := hrel.1
    rw [← hlen]
    simp only [List.getElem?_concat_length]
    exact rootLoop_fuel _ _ _ _ (mono _ _ _ _ _ h1) _ hf
  · intro id hid
    have hs : es[id]? = some es[id] := List.getElem?_eq_getElem hid
    have ha := hrel.2 id _ hs
    have hb := ha.mono ⟨l.context, l.ec, l.ecText, some n, l.request⟩
    refine ⟨es[id].length, fun g hg => ?_⟩
    rw [hheap, message_fuel _ _ _ _ _ ha.message _ hg, message_fuel _ _ _ _ _ hb.message _ hg]

/-- a chain of three levels and a second wrapper of the same cause -/
def exOps : List Op :=
  [.fresh ⟨"db", 7, "no route", none⟩, .wrap ⟨"client", 3, "down", some "req"⟩ 0,
   .wrap ⟨"sup", 2, "child down", none⟩ 1, .wrap ⟨"other", 5, "failed", none⟩ 0]

example : ∃ es ls, made [] exOps = some es ∧ es[2]? = some ls ∧ ls.length = 3 ∧
    render ls = "sup child down <- client down <- db no route" := by
  refine ⟨_, _, rfl, rfl, rfl, by decide⟩

/-- A stringifier is used for the outermost level only (observation about the code, not a claim of
the property): the nested requests are not rendered. -/
theorem C45_stringifier_outermost_only (h : Heap) (o : Obj) (n : Nat) (id f : Nat) (hid : h[id]? = some o)
    (hn : o.next = some n) (t : String) (ht : message h false f n = some t) :
    ∃ own, message h true (f + 1) id = some (own ++ " <- " ++ t) := by
  simp only [message, hid, hn, ht]
  exact ⟨_, rfl⟩

end Verif.ExtendedError
