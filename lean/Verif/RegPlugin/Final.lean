import Verif.RegPlugin.Progress
/-!
# C49: the positive answer is the last one
-/

namespace Verif.RegPlugin
open Verif

variable {c : Conf} {σ σ' : State}

def isAnswer : Ev → Bool
  | .answer _ => true
  | _ => false

/-- what a step adds to the log, with regard to answers -/
structure Adds (σ σ' : State) (es : List Ev) : Prop where
  log : σ'.log = es ++ σ.log
  needs : es.any isAnswer = true → σ.initReq = true
  good : .answer true ∈ es → es = [.answer true] ∧ σ'.initReq = false
  keeps : (∃ b, .answer b ∈ σ.log) → σ.initReq = false → σ'.initReq = false

theorem Adds.quiet {es : List Ev} (h1 : σ'.log = es ++ σ.log) (h2 : es.any isAnswer = false) (h3 : σ'.initReq = σ.initReq) : Adds σ σ' es := by
  refine ⟨h1, ?_, fun h => ?_, fun _ h => by rw [h3]; exact h⟩
  · intro h; rw [h2] at h; cases h
  · rw [List.any_eq_false] at h2
    exact absurd rfl (h2 _ h)

theorem foundEv_quiet (n : Nat) (t : Task) (a : Nat) : (foundEv n t a).any isAnswer = false := by
  unfold foundEv; split <;> rfl

theorem callEvs_quiet (σ : State) (b : Bool) (names : List Nat) : (callEvs σ b names).any isAnswer = false := by
  rw [List.any_eq_false]
  intro e he
  unfold callEvs at he
  simp only [List.mem_reverse, List.mem_filterMap] at he
  obtain ⟨m, _, hm⟩ := he
  revert hm
  repeat' split
  all_goals (intro hm; cases hm; try simp [isAnswer])

theorem map_quiet {α : Type} (l : List α) (f : α → Bool) (h : ∀ x, f x = false) : l.any f = false := by
  rw [List.any_eq_false]; intro x _; rw [h x]; simp

theorem rev_quiet {α : Type} (l : List α) (f : α → Ev) (h : ∀ x, isAnswer (f x) = false) : (l.map f).reverse.any isAnswer = false := by
  rw [List.any_reverse, List.any_map]; exact map_quiet _ _ h

theorem M.adds (m : M c σ σ') : ∃ es, Adds σ σ' es := by
  cases m
  case recvInit h1 h2 =>
    exact ⟨[], rfl, (by simp), (by simp), fun ⟨b, hb⟩ => absurd hb (h2 b)⟩
  case confL hc hs hi e =>
    obtain ⟨srv', b, e1, -⟩ := links_spec e
    subst e1
    exact ⟨_, .quiet rfl (by rw [List.any_reverse, List.any_map]; exact map_quiet _ _ (fun _ => rfl)) rfl⟩
  case confR hc hs hi hl e =>
    obtain ⟨regs', disc', e1, e2, e3, e4, -⟩ := wants_spec e
    subst e1
    rcases linkedTo_cases c c.wants { σ with confR := true } with ⟨e, f⟩ | ⟨f1, f2, e⟩ <;> rw [e]
    · exact ⟨[], .quiet rfl rfl rfl⟩
    · exact ⟨[_], .quiet rfl rfl rfl⟩
  case finI h1 h2 h3 h4 => exact ⟨[_], rfl, fun _ => h2, fun _ => ⟨rfl, rfl⟩, fun _ _ => rfl⟩
  case regOk => exact ⟨[_], .quiet rfl rfl rfl⟩
  case regErr n r h1 h2 h3 => exact ⟨[_, _], rfl, fun _ => h3, (by simp), fun _ => id⟩
  case alias n a t names h1 h2 h3 h4 => exact ⟨foundEv n t a ++ [.discRes n (some a)], .quiet (by simp) (by simp [foundEv_quiet, isAnswer]) rfl⟩
  case found n a t h1 h2 h3 h4 h5 => exact ⟨.linkReq a (.task n) :: (foundEv n t a ++ [.discRes n (some a)]), .quiet (by simp) (by simp [foundEv_quiet, isAnswer]) rfl⟩
  case foundDown n a t d h1 h2 h3 h4 h5 => exact ⟨foundEv n t a ++ [.discRes n (some a)], .quiet (by simp) (by simp [foundEv_quiet, isAnswer]) rfl⟩
  case lostInit n t h1 h2 h3 h4 => exact ⟨[_, _], rfl, fun _ => h4, (by simp), fun _ => id⟩
  case lostDown => exact ⟨[_], .quiet rfl rfl rfl⟩
  case linkUser => exact ⟨[_], .quiet rfl rfl rfl⟩
  case linkReg a r h1 h2 h3 =>
    refine ⟨(σ.disc.map (fun p : Nat × Task => Ev.discover p.1 p.2.delayed)).reverse ++
        ((σ.regs.map (fun p : Nat × Reg => Ev.register p.1 p.2.a)).reverse ++ [.linkRes a true]), .quiet (by simp [onLink]) ?_ (by simp [onLink])⟩
    rw [List.any_append, List.any_append, rev_quiet _ _ (fun _ => rfl), rev_quiet _ _ (fun _ => rfl)]; rfl
  case linkTask a n r t names h1 h2 h3 h4 h5 h6 h7 => exact ⟨callEvs σ true names ++ [.linkRes a true], .quiet (by simp) (by simp [callEvs_quiet, isAnswer]) rfl⟩
  case linkTaskDown a n r t names h1 h2 h3 h4 h5 h6 h7 => exact ⟨callEvs σ true names ++ [.linkRes a true], .quiet (by simp) (by simp [callEvs_quiet, isAnswer]) rfl⟩
  case linkErr a r h1 h2 h3 =>
    refine ⟨(if σ.initReq then [.answer false] else []) ++ [.linkRes a false], by simp, ?_, ?_, fun _ _ => rfl⟩
    · split
      · intro _; assumption
      · simp [isAnswer]
    · split <;> simp
  case linkTaskErr a n r t names h1 h2 h3 h4 h5 h6 h7 =>
    refine ⟨(if σ.st = .initializing then [.answer false] else []) ++ (callEvs σ false names ++ [.linkRes a false]), by simp, ?_, ?_, fun _ => id⟩
    · split
      · intro _; exact h7 ‹_›
      · simp [callEvs_quiet, isAnswer]
    · have := callEvs_quiet σ false names
      rw [List.any_eq_false] at this
      intro h
      simp only [List.mem_append, List.mem_singleton] at h
      rcases h with h | h | h
      · revert h; split <;> simp
      · exact absurd rfl (this _ h)
      · cases h
  case failReset h => exact ⟨[_], rfl, fun _ => h, (by simp), fun _ _ => rfl⟩
  case shut => exact ⟨[_], .quiet rfl rfl rfl⟩
  case names =>
    refine ⟨((σ.disc.filter (fun p : Nat × Task => waits p.2)).map (fun p : Nat × Task => Ev.cancel p.1)).reverse ++
      ((σ.regs.filter (fun p : Nat × Reg => decide (p.2.st = RegSt.operational))).map (fun p : Nat × Reg => Ev.dereg p.1)).reverse,
      .quiet (by simp [shutNames]) ?_ rfl⟩
    rw [List.any_append, rev_quiet _ _ (fun _ => rfl), rev_quiet _ _ (fun _ => rfl)]; rfl
  case namesEnd =>
    refine ⟨((σ.disc.filter (fun p : Nat × Task => waits p.2)).map (fun p : Nat × Task => Ev.cancel p.1)).reverse ++
      ((σ.regs.filter (fun p : Nat × Reg => decide (p.2.st = RegSt.operational))).map (fun p : Nat × Reg => Ev.dereg p.1)).reverse,
      .quiet (by simp [shutNames]) ?_ rfl⟩
    rw [List.any_append, rev_quiet _ _ (fun _ => rfl), rev_quiet _ _ (fun _ => rfl)]; rfl
  all_goals exact ⟨[], .quiet rfl rfl rfl⟩

/-- a positive answer leaves no request, and no answer comes after it -/
structure Fin (σ : State) : Prop where
  req : .answer true ∈ σ.log → σ.initReq = false
  last : ∀ pre post, σ.log = pre ++ .answer true :: post → ∀ b, .answer b ∉ pre

theorem Fin.step (h : Fin σ) (m : M c σ σ') : Fin σ' := by
  obtain ⟨es, a⟩ := m.adds
  have hlog := a.log
  have noes : .answer true ∈ σ.log → ∀ b, .answer b ∉ es := fun ht b hb => by
    have := a.needs (List.any_eq_true.2 ⟨_, hb, rfl⟩)
    rw [h.req ht] at this
    cases this
  refine ⟨fun hm => ?_, fun pre post e b hb => ?_⟩
  · rw [hlog, List.mem_append] at hm
    rcases hm with hm | hm
    · exact (a.good hm).2
    · exact a.keeps ⟨_, hm⟩ (h.req hm)
  · rw [hlog, List.append_eq_append_iff] at e
    rcases e with ⟨x, e1, e2⟩ | ⟨x, e1, e2⟩
    · -- the positive answer was in the old log
      have ht : .answer true ∈ σ.log := by rw [e2]; simp
      rw [e1, List.mem_append] at hb
      rcases hb with hb | hb
      · exact noes ht b hb
      · exact h.last x post e2 b hb
    · -- in the new part
      cases x with
      | nil =>
        simp only [List.append_nil] at e1
        simp only [List.nil_append] at e2
        have ht : .answer true ∈ σ.log := by rw [← e2]; simp
        exact noes ht b (by rw [e1]; exact hb)
      | cons y ys =>
        simp only [List.cons_append, List.cons.injEq] at e2
        obtain ⟨rfl, -⟩ := e2
        have := (a.good (by rw [e1]; simp)).1
        rw [this] at e1
        cases pre with
        | nil => cases hb
        | cons z zs => simp at e1

theorem Reach.fin (hg : c.Good) (h : Reach c NoPoke σ) : Fin σ := by
  induction h with
  | init => exact ⟨fun h => (by cases h), fun pre post e => by cases pre <;> cases e⟩
  | @step σ σ' op hr hp e ih =>
    have hi := hr.inv hg
    have m := sim_step hi.b (op := op) (by cases op <;> first | rfl | exact absurd hp (by simp [NoPoke])) e
    clear e
    induction m with
    | refl => exact ih
    | tail m1 m2 ih2 => exact ih2.step m2

/-- Whatever the registry, the servers and the timers do: an actor that has told its supervisor that it is initialized does not answer
    its init request again — neither a second time with success nor with an error of a link or a name that comes later. -/
theorem C49_success_final (hg : c.Good) (h : Reach c NoPoke σ) {pre post : List Ev} (hl : σ.log = pre ++ .answer true :: post) :
    ∀ b, .answer b ∉ pre :=
  (h.fin hg).last pre post hl

end Verif.RegPlugin
