import Verif.Registry.Spec

/-! # Proof machinery for the registry -/

namespace Verif.Registry
open Verif

/-- forward and reverse index agree -/
structure Inv (s : State) : Prop where
  rev : ∀ n a, s.registered.find n = some a ↔ ∃ ns, s.reverse.find a = some ns ∧ n ∈ ns
  nodup : ∀ a ns, s.reverse.find a = some ns → ns.Nodup

/-- what the concrete state means -/
def abs (s : State) : Spec := ⟨s.registered.find, s.promises⟩

theorem step_to {s m out s1 s2} (h : Spec.Step s m out s1) (e : s2 = s1) : Spec.Step s m out s2 := e ▸ h

theorem inv_init : Inv State.init := by
  constructor <;> simp [State.init]

theorem answerPromises_spec (n : Name) (a : Addr) (ps : List Promise) :
    answerPromises n a ps =
      ((ps.filter (fun p => p.name = n)).map (fun p => .future p.req (.ok a)), ps.filter (fun p => p.name ≠ n)) := by
  induction ps with
  | nil => rfl
  | cons p ps ih =>
    simp only [answerPromises, ih, List.filter_cons]
    by_cases h : p.name = n <;> simp [h]

theorem eraseLast_none (q : Promise → Bool) (ps : List Promise) (h : eraseLast q ps = none) :
    ∀ p ∈ ps, q p = false := by
  induction ps with
  | nil => simp
  | cons x r ih =>
    simp only [eraseLast] at h
    cases hr : eraseLast q r with
    | some v => simp [hr] at h
    | none =>
      simp only [hr] at h
      split at h
      · simp at h
      · intro p hp
        rcases List.mem_cons.1 hp with rfl | hp
        · rename_i hx; simpa using hx
        · exact ih hr p hp

theorem eraseLast_some (q : Promise → Bool) (ps : List Promise) (p : Promise) (rest : List Promise)
    (h : eraseLast q ps = some (p, rest)) :
    ∃ pre post, ps = pre ++ p :: post ∧ rest = pre ++ post ∧ q p = true ∧ ∀ x ∈ post, q x = false := by
  induction ps generalizing rest with
  | nil => simp [eraseLast] at h
  | cons x r ih =>
    simp only [eraseLast] at h
    cases hr : eraseLast q r with
    | some v =>
      obtain ⟨y, r'⟩ := v
      simp only [hr, Option.some.injEq, Prod.mk.injEq] at h
      obtain ⟨rfl, rfl⟩ := h
      obtain ⟨pre, post, h1, h2, h3, h4⟩ := ih r' hr
      exact ⟨x :: pre, post, by simp [h1], by simp [h2], h3, h4⟩
    | none =>
      simp only [hr] at h
      split at h
      · simp only [Option.some.injEq, Prod.mk.injEq] at h
        obtain ⟨rfl, rfl⟩ := h
        exact ⟨[], r, rfl, rfl, by assumption, eraseLast_none q r hr⟩
      · simp at h

theorem find_foldl_erase (ns : List Name) (m : AMap Name Addr) (k : Name) :
    (ns.foldl (fun m n => m.erase n) m).find k = if k ∈ ns then none else m.find k := by
  induction ns generalizing m with
  | nil => simp
  | cons n ns ih =>
    simp only [List.foldl_cons, ih, AMap.find_erase, List.mem_cons]
    by_cases h1 : k ∈ ns <;> by_cases h2 : k = n <;> simp [h1, h2]

/-- one message keeps the indices consistent, cannot terminate the program, and is a step of the
specification -/
theorem step_refines (s : State) (m : Msg) (hi : Inv s) :
    ∃ s' out, s.step m = .ok (s', out) ∧ Inv s' ∧ Spec.Step (abs s) m out (abs s') := by
  cases m with
  | register r n a =>
    simp only [State.step, State.onReg]
    cases hf : s.registered.find n with
    | some b =>
      exact ⟨_, _, rfl, hi, .refuse _ _ _ _ (by simp [abs, hf])⟩
    | none =>
      refine ⟨_, _, rfl, ?_, ?_⟩
      · have hnot : ∀ a' ns, s.reverse.find a' = some ns → n ∉ ns := by
          intro a' ns h1 h2
          have := (hi.rev n a').2 ⟨ns, h1, h2⟩
          rw [hf] at this; simp at this
        have hins : ∀ (x : Name) l, x ∈ setInsert n l ↔ x = n ∨ x ∈ l := by
          intro x l; unfold setInsert; split <;> simp <;> grind
        constructor
        · intro n' a'
          simp only [AMap.find_set]
          by_cases ha : a' = a
          · subst ha
            simp only [if_true, Option.some.injEq, exists_eq_left', hins]
            by_cases hn : n' = n
            · simp [hn]
            · simp only [hn, if_false, false_or]
              cases hr : s.reverse.find a' with
              | none =>
                have := (hi.rev n' a')
                simp [hr] at this
                simp [this]
              | some ns =>
                have := (hi.rev n' a')
                simp only [hr, Option.some.injEq, exists_eq_left'] at this
                simpa using this
          · simp only [ha, if_false]
            by_cases hn : n' = n
            · subst hn
              simp only [if_true, Option.some.injEq]
              constructor
              · intro h; exact absurd h.symm ha
              · rintro ⟨ns, h1, h2⟩; exact absurd h2 (hnot a' ns h1)
            · simp only [hn, if_false]; exact hi.rev n' a'
        · intro a' ns
          simp only [AMap.find_set]
          split
          · intro h
            simp only [Option.some.injEq] at h; subst h
            have hnd : ((s.reverse.find a).getD []).Nodup := by
              cases hr : s.reverse.find a with
              | none => simp
              | some l => simpa using hi.nodup a l hr
            unfold setInsert
            split
            · exact hnd
            · exact List.nodup_cons.2 ⟨by assumption, hnd⟩
          · exact hi.nodup a' ns
      · have := Spec.Step.grant (abs s) r n a (by simp [abs, hf])
        simp only [answerPromises_spec]
        refine step_to this ?_
        simp only [abs, Spec.mk.injEq, and_true]
        funext m
        simp [AMap.find_set]
  | deregister a =>
    simp only [State.step, State.onDereg]
    cases hf : s.reverse.find a with
    | none =>
      refine ⟨_, _, rfl, hi, ?_⟩
      have := Spec.Step.withdraw (abs s) a
      refine step_to this ?_
      simp only [abs, Spec.mk.injEq, and_true]
      funext m
      have := hi.rev m a
      simp only [hf, reduceCtorEq, false_and, exists_false, iff_false] at this
      exact (if_neg this).symm
    | some ns =>
      have hfind : ∀ k, (ns.foldl (fun m n => m.erase n) s.registered).find k =
          if s.registered.find k = some a then none else s.registered.find k := by
        intro k
        rw [find_foldl_erase]
        have := hi.rev k a
        simp only [hf, Option.some.injEq, exists_eq_left'] at this
        simp only [this]
      refine ⟨_, _, rfl, ?_, ?_⟩
      · constructor
        · intro n' a'
          simp only [hfind, AMap.find_erase]
          by_cases ha : a' = a
          · subst ha; simp
          · simp only [ha, if_false]
            have := hi.rev n' a'
            rw [← this]; grind
        · intro a' ns'
          simp only [AMap.find_erase]
          split
          · simp
          · exact hi.nodup a' ns'
      · have := Spec.Step.withdraw (abs s) a
        refine step_to this ?_
        simp only [abs, Spec.mk.injEq, and_true]
        funext m
        exact hfind m
  | deregisterName n =>
    simp only [State.step, State.onDeregService]
    cases hf : s.registered.find n with
    | none =>
      refine ⟨_, _, rfl, hi, ?_⟩
      have := Spec.Step.release (abs s) n
      refine step_to this ?_
      simp only [abs, Spec.mk.injEq, and_true]
      funext m
      grind
    | some a =>
      obtain ⟨ns, h1, h2⟩ := (hi.rev n a).1 hf
      simp only [h1]
      refine ⟨_, _, rfl, ?_, ?_⟩
      · constructor
        · intro n' a'
          simp only [AMap.find_set, AMap.find_erase]
          have hnd := hi.nodup a ns h1
          by_cases ha : a' = a
          · subst ha
            simp only [if_true, Option.some.injEq, exists_eq_left', hnd.mem_erase_iff]
            have := hi.rev n' a'
            simp only [h1, Option.some.injEq, exists_eq_left'] at this
            grind
          · simp only [ha, if_false]
            have := hi.rev n' a'
            rw [← this]; grind
        · intro a' ns'
          simp only [AMap.find_set]
          split
          · intro h
            simp only [Option.some.injEq] at h; subst h
            exact (hi.nodup a ns h1).erase n
          · exact hi.nodup a' ns'
      · have := Spec.Step.release (abs s) n
        refine step_to this ?_
        simp only [abs, Spec.mk.injEq, and_true]
        funext m
        simp [AMap.find_erase]
  | discover r n =>
    simp only [State.step, State.onDiscovery]
    cases hf : s.registered.find n with
    | none => exact ⟨_, _, rfl, hi, .notFound _ _ _ (by simp [abs, hf])⟩
    | some a => exact ⟨_, _, rfl, hi, .found _ _ _ _ (by simp [abs, hf])⟩
  | promise r n =>
    simp only [State.step, State.onPromise]
    cases hf : s.registered.find n with
    | none =>
      refine ⟨_, _, rfl, ⟨hi.rev, hi.nodup⟩, ?_⟩
      exact Spec.Step.wait (abs s) r n (by simp [abs, hf])
    | some a => exact ⟨_, _, rfl, hi, .atOnce _ _ _ _ (by simp [abs, hf])⟩
  | cancel id src =>
    simp only [State.step, State.onCancel]
    have hq : ∀ p : Promise, (p.req.id == id && p.req.origin == src) = decide (p.req = ⟨id, src⟩) := by
      intro p
      obtain ⟨⟨i, o⟩, n⟩ := p
      simp only [Req.mk.injEq, Bool.decide_and]
      rfl
    simp only [hq]
    cases hf : eraseLast (fun p => decide (p.req = ⟨id, src⟩)) s.promises with
    | none =>
      refine ⟨_, _, rfl, hi, ?_⟩
      apply Spec.Step.cancelNothing
      intro q hq'
      have := eraseLast_none _ _ hf q hq'
      simpa using this
    | some v =>
      obtain ⟨p, rest⟩ := v
      obtain ⟨pre, post, h1, h2, h3, h4⟩ := eraseLast_some _ _ _ _ hf
      refine ⟨_, _, rfl, ⟨hi.rev, hi.nodup⟩, ?_⟩
      have := Spec.Step.cancel (abs s) id src pre p post h1 (by simpa using h3)
        (by intro q hq'; simpa using h4 q hq')
      rw [h2]; exact this

theorem run_refines (s : State) (ms : List Msg) (hi : Inv s) :
    ∃ s' out, s.run ms = .ok (s', out) ∧ Inv s' ∧ Spec.Run (abs s) ms out (abs s') := by
  induction ms generalizing s with
  | nil => exact ⟨s, [], rfl, hi, .nil _⟩
  | cons m ms ih =>
    obtain ⟨s1, o1, h1, h2, h3⟩ := step_refines s m hi
    obtain ⟨s2, o2, h4, h5, h6⟩ := ih s1 h2
    refine ⟨s2, o1 ++ o2, ?_, h5, .cons h3 h6⟩
    simp only [State.run, h1, h4]

end Verif.Registry
