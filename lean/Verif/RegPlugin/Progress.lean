import Verif.RegPlugin.Wait
import Verif.RegPlugin.Props
/-!
# C49: an initialization that waits for nothing any more is complete
-/

namespace Verif.RegPlugin
open Verif

variable {c : Conf} {σ σ' : State}

/-- the other plugins agree at once -/
def agrees : Op → Prop
  | .init o | .contInit o => o.next = true
  | .regRes _ _ o | .discRes _ _ o => o.next = true
  | .linkRes _ _ o1 o2 => o1.next = true ∧ o2.next = true
  | _ => True

theorem M.log (m : M c σ σ') : ∃ es, σ'.log = es ++ σ.log := by
  cases m
  case confL hc hs hi e =>
    obtain ⟨srv', b, e1, -⟩ := links_spec e
    subst e1; exact ⟨_, rfl⟩
  case confR hc hs hi hl e =>
    obtain ⟨regs', disc', e1, e2, e3, e4, -⟩ := wants_spec e
    subst e1
    rcases linkedTo_cases c c.wants { σ with confR := true } with ⟨e, f⟩ | ⟨f1, f2, e⟩ <;> rw [e]
    · exact ⟨[], rfl⟩
    · exact ⟨[_], rfl⟩
  case finI => exact ⟨[_], rfl⟩
  case regOk => exact ⟨[_], rfl⟩
  case regErr => exact ⟨[_, _], rfl⟩
  case alias n a t names hq ht hs ha => exact ⟨foundEv n t a ++ [.discRes n (some a)], by simp⟩
  case found n a t hq ht hs ha hr => exact ⟨.linkReq a (.task n) :: (foundEv n t a ++ [.discRes n (some a)]), by simp⟩
  case foundDown n a t d hq hfd hdk ht hs => exact ⟨foundEv n t a ++ [.discRes n (some a)], by simp⟩
  case lostInit => exact ⟨[_, _], rfl⟩
  case lostDown => exact ⟨[_], rfl⟩
  case linkUser => exact ⟨[_], rfl⟩
  case linkReg a r hq hr hcb =>
    exact ⟨(σ.disc.map (fun p : Nat × Task => Ev.discover p.1 p.2.delayed)).reverse ++
        ((σ.regs.map (fun p : Nat × Reg => Ev.register p.1 p.2.a)).reverse ++ [.linkRes a true]), by simp [onLink]⟩
  case linkTask a n r t names hq hr hcb ht hn hall hst => exact ⟨callEvs σ true names ++ [.linkRes a true], by simp⟩
  case linkTaskDown a n r t names hq hr hcb ht hn hall hst => exact ⟨callEvs σ true names ++ [.linkRes a true], by simp⟩
  case linkTaskErr a n r t names hq hr hcb ht hn hall hst =>
    exact ⟨(if σ.st = .initializing then [.answer false] else []) ++ (callEvs σ false names ++ [.linkRes a false]), by simp⟩
  case linkErr a r hq hr hcb => exact ⟨(if σ.initReq then [.answer false] else []) ++ [.linkRes a false], by simp⟩
  case failReset => exact ⟨[_], rfl⟩
  case shut => exact ⟨[_], rfl⟩
  case names =>
    exact ⟨((σ.disc.filter (fun p : Nat × Task => waits p.2)).map (fun p : Nat × Task => Ev.cancel p.1)).reverse ++
      ((σ.regs.filter (fun p : Nat × Reg => decide (p.2.st = RegSt.operational))).map (fun p : Nat × Reg => Ev.dereg p.1)).reverse, by simp [shutNames]⟩
  case namesEnd =>
    exact ⟨((σ.disc.filter (fun p : Nat × Task => waits p.2)).map (fun p : Nat × Task => Ev.cancel p.1)).reverse ++
      ((σ.regs.filter (fun p : Nat × Reg => decide (p.2.st = RegSt.operational))).map (fun p : Nat × Reg => Ev.dereg p.1)).reverse, by simp [shutNames]⟩
  all_goals exact ⟨[], rfl⟩

theorem M.back (m : M c σ σ') (h : σ'.st = .initializing) : σ.st = .initializing := by
  cases m
  case finI => cases h
  case shut => cases h
  case finish => cases h
  case start => cases h
  all_goals first | exact h | assumption

theorem Ms.mono (m : Ms c σ σ') : (∀ e, e ∈ σ.log → e ∈ σ'.log) ∧ (σ'.st = .initializing → σ.st = .initializing) := by
  induction m with
  | refl => exact ⟨fun _ => id, id⟩
  | tail _ m ih =>
    obtain ⟨es, h⟩ := m.log
    exact ⟨fun e he => by rw [h]; simp [ih.1 e he], fun h => ih.2 (m.back h)⟩

/-- a poll leaves a pending plugin only if something is pending -/
theorem init_post {o : Ora} (e : initContinue c o σ = .ok σ') (hs : σ'.st = .initializing) (h1 : notLinking σ' = true) (h2 : σ'.disc = [])
    (h3 : hasRegistering σ' = false) : σ'.rInitL = false ∧ σ'.rInitR = false ∧ o.next = false := by
  have hr : ∀ τ : State, τ.rInitL = false → pollRegistry c o τ = .ok σ' → σ'.rInitL = false ∧ σ'.rInitR = false ∧ o.next = false := by
    intro τ hl e
    unfold pollRegistry at e
    split at e
    · split at e
      · cases e
      · rename_i τ1 hc
        split at e
        · rename_i hd
          injection e with e; subst e
          unfold pollRest at hs ⊢
          cases hn : o.next with
          | true => rw [hn] at hs; cases hs
          | false =>
            simp only [Bool.false_eq_true, if_false, and_true]
            unfold confRegistry at hc
            split at hc
            · cases hc; exact hl
            · have hw := wants_empty hc (by simpa using hd.1) hd.2
              obtain ⟨-, -, -, -, -, h⟩ := wants_fields hc
              rw [h hw]; exact hl
        · rename_i hd
          injection e with e; subst e
          exact absurd ⟨by simp [h2], h3⟩ hd
    · rename_i hri
      injection e with e; subst e
      unfold pollRest at hs ⊢
      cases hn : o.next with
      | true => rw [hn] at hs; cases hs
      | false => simp only [Bool.false_eq_true, if_false, and_true]; exact ⟨hl, by simpa using hri⟩
  unfold initContinue at e
  split at e
  · split at e
    · split at e
      · cases e
      · split at e
        · exact hr _ rfl e
        · injection e with e; subst e; contradiction
    · rename_i hl; exact hr _ (by simpa using hl) e
  · cases e

/-- nothing pending -/
theorem settled (hg : c.Good) (h : Reach c NoPoke σ) (hs : σ.st = .initializing) (hf : Ev.answer false ∉ σ.log) (h1 : σ.qReg = []) (h2 : σ.qDisc = [])
    (h3 : σ.qLink = []) (hl : ∀ n a, ¬ Late n a σ.log) : notLinking σ = true ∧ σ.disc = [] ∧ hasRegistering σ = false := by
  have hi := h.inv hg
  obtain ⟨hw, -⟩ := h.w hg
  have hlink : ∀ a cb, σ.srv.find a ≠ some ⟨false, cb⟩ := by
    intro a cb hp
    have := (hi.b.on hs a cb hp).2.2
    rw [h3] at this; cases this
  refine ⟨?_, AMap.eq_nil_of_find _ (fun n => ?_), ?_⟩
  · rw [notLinking_iff]
    rintro ⟨a, op, cb⟩ hp
    cases op with
    | true => rfl
    | false => exact absurd (AMap.find_of_mem hi.r.rk hp) (hlink a cb)
  · cases e : σ.disc.find n with
    | none => rfl
    | some t =>
      rcases hw.w1 hs hf n t e with h | h | ⟨a, -, h | h⟩
      · exact absurd h (hlink _ _)
      · rw [h2] at h; cases h
      · rw [h3] at h; cases h
      · exact absurd h (hl n a)
  · rw [hasReg_iff]
    rintro ⟨n, a, st⟩ hp hst
    simp only at hst; subst hst
    rcases hw.w2 hs hf n a (AMap.find_of_mem hi.u.r hp) with h | h
    · exact absurd h (hlink _ _)
    · rw [h1] at h; cases h

/-- with nothing pending, both plugins have ended; and some plugin did not agree -/
def Polled (s : Bool) (σ : State) : Prop :=
  σ.st = .initializing → σ.initReq = true → Ev.answer false ∉ σ.log → σ.qReg = [] → σ.qDisc = [] → σ.qLink = [] → (∀ n a, ¬ Late n a σ.log) →
    σ.rInitL = false ∧ σ.rInitR = false ∧ s = true

theorem polled (hg : c.Good) {s : Bool} (h : Reach c (fun σ op => NoPoke σ op ∧ (s = false → agrees op)) σ) : Polled s σ := by
  induction h with
  | init => intro _ h; cases h
  | @step σ σ' op hr hp e ih =>
    have hr0 : Reach c NoPoke σ := hr.mono (fun _ _ h => h.1)
    have hr1 : Reach c NoPoke σ' := .step op hr0 hp.1 e
    have m := (sim_step (hr0.inv hg).b (op := op) (by cases op <;> first | rfl | exact absurd hp.1 (by simp [NoPoke])) e).mono
    intro hs hq hf g1 g2 g3 hl
    have hs0 := m.2 hs
    have hf0 : Ev.answer false ∉ σ.log := fun h => hf (m.1 _ h)
    obtain ⟨d1, d2, d3⟩ := settled hg hr1 hs hf g1 g2 g3 hl
    have fin : ∀ {o : Ora} {τ : State}, (s = false → o.next = true) → initContinue c o τ = .ok σ' → σ'.rInitL = false ∧ σ'.rInitR = false ∧ s = true := by
      intro o τ ho e
      obtain ⟨k1, k2, k3⟩ := init_post e hs d1 d2 d3
      refine ⟨k1, k2, ?_⟩
      cases s with
      | true => rfl
      | false => rw [ho rfl] at k3; cases k3
    obtain ⟨hp1, hp2⟩ := hp
    cases op with
    | init o =>
      simp only [step, hs0, if_true] at e
      split at e
      · exact fin hp2 e
      · cases e
    | contInit o =>
      simp only [step] at e
      split at e
      · exact fin hp2 e
      · cases e
    | contShut o => simp [step, hs0] at e
    | shut o =>
      simp only [step] at e
      split at e
      · rw [(sim_shutdown (c := c) e).2.1] at hs; cases hs
      · cases e
    | finish => simp [step, hs0] at e
    | start => simp [step, hs0] at e
    | forget a =>
      simp only [step] at e
      split at e
      · split at e
        · cases e; exact ih hs0 hq hf g1 g2 g3 hl
        · cases e
      · cases e
    | poke v x => simp [NoPoke] at hp1
    | regRes n ok o =>
      cases ok with
      | false => exact absurd (C49_fails hg hr0 (.inl ⟨n, o, rfl⟩) hs0 hf0 e).1 hf
      | true =>
        simp only [step, hs0, reduceCtorEq, if_false] at e
        split at e
        · unfold onRegistration at e
          split at e
          · cases e
          · simp only [if_true, Bool.true_eq_false, or_false] at e
            split at e
            · unfold continueInit at e
              split at e
              · simp only [if_true] at e; exact fin hp2 e
              · cases e
            · rename_i hx; injection e with e; subst e; exact absurd d3 hx
        · cases e
    | discRes n res o =>
      cases res with
      | none => exact absurd (C49_fails hg hr0 (.inr (.inl ⟨n, o, rfl⟩)) hs0 hf0 e).1 hf
      | some a =>
        exfalso
        simp only [step, hs0, reduceCtorEq, if_false] at e
        split at e
        · unfold onDiscovery at e
          split at e
          · cases e
          · rename_i t ht
            have hst : (store n t a { σ with st := .initializing, qDisc := rm σ.qDisc n, log := .discRes n (some a) :: σ.log }).st = .initializing := by
              unfold store; simp only; split <;> rfl
            have hdd : (store n t a { σ with st := .initializing, qDisc := rm σ.qDisc n, log := .discRes n (some a) :: σ.log }).disc = σ.disc := by
              unfold store; simp only; split <;> rfl
            simp only [hst, if_true] at e
            have : σ'.disc = σ.disc := by
              unfold linkTask at e
              split at e
              · injection e with e; subst e; exact hdd
              · split at e
                · cases e
                · rename_i τ h
                  unfold link at h
                  split at h
                  · cases h
                  · injection h with h; subst h; injection e with e; subst e; exact hdd
            rw [this] at d2
            simp only [d2] at ht
            cases ht
        · cases e
    | linkRes a ok o1 o2 =>
      cases ok with
      | false => exact absurd (C49_fails hg hr0 (.inr (.inr ⟨a, o1, o2, rfl⟩)) hs0 hf0 e).1 hf
      | true =>
        simp only [step, hs0, reduceCtorEq, if_false] at e
        split at e
        · unfold onLinkResponse at e
          split at e
          · cases e
          · split at e
            · cases e
            · unfold linkEnd at e
              simp only [if_true] at e
              split at e
              · cases e
              · split at e
                · exact fin (fun h => (hp2 h).2) e
                · rename_i hx; injection e with e; subst e; exact absurd hq hx
        · cases e

/-- C49: an initialization in which nothing is pending and nothing has failed is complete as far as names and links are concerned: when the
other plugins agree, the init request is answered. (Partial: no name was found at an address linked before, `C49_late_counterexample`.) -/
theorem C49_progress_partial (hg : c.Good) (h : Reach c NoPoke σ) (hs : σ.st = .initializing) (hq : σ.initReq = true) (hf : Ev.answer false ∉ σ.log)
    (h1 : σ.qReg = []) (h2 : σ.qDisc = []) (h3 : σ.qLink = []) (hl : ∀ n a, ¬ Late n a σ.log) {o : Ora} (ho : o.next = true) :
    ∃ σ', step c σ (.contInit o) = .ok σ' ∧ σ'.st = .initialized ∧ σ'.log = .answer true :: σ.log := by
  obtain ⟨k1, k2, -⟩ := polled (s := true) hg (h.mono (fun _ _ h => ⟨h, by simp⟩)) hs hq hf h1 h2 h3 hl
  exact ⟨initFinish σ, by simp [step, hs, hq, initContinue, k1, k2, pollRegistry, pollRest, ho], rfl, rfl⟩

/-- C49: .. and if the other plugins have agreed at once, it has been answered -/
theorem C49_answered_partial (hg : c.Good) (h : Reach c (fun σ op => NoPoke σ op ∧ agrees op) σ) (hq : σ.initReq = true) (hf : Ev.answer false ∉ σ.log)
    (h1 : σ.qReg = []) (h2 : σ.qDisc = []) (h3 : σ.qLink = []) (hl : ∀ n a, ¬ Late n a σ.log) : σ.st ≠ .initializing := by
  intro hs
  obtain ⟨-, -, k⟩ := polled (s := false) hg (h.mono (fun _ _ h => ⟨h.1, fun _ => h.2⟩)) hs hq hf h1 h2 h3 hl
  cases k

end Verif.RegPlugin
