import Verif.RegPlugin.Full
/-!
# All invariants together, and what waits for what
-/

namespace Verif.RegPlugin
open Verif

variable {c : Conf} {σ σ' : State}

/-- the name was found at an address that had been linked before -/
def Late (n a : Nat) (l : List Ev) : Prop := ∃ pre post, l = pre ++ .discRes n (some a) :: post ∧ Ev.linkRes a true ∈ post

theorem Late.mono {n a : Nat} {es l : List Ev} (h : Late n a l) : Late n a (es ++ l) := by
  obtain ⟨pre, post, h1, h2⟩ := h
  exact ⟨es ++ pre, post, by simp [h1], h2⟩

/-- addresses found, and their links -/
structure R (c : Conf) (σ : State) : Prop where
  r0 : σ.confR = false → σ.al = []
  r1 : ∀ a names, σ.al.find (some a) = some names → ∀ b cb, σ.srv.find a = some ⟨b, cb⟩ → ∃ m, cb = .task m
  r2 : ∀ a names, σ.st = .initializing → Ev.answer false ∉ σ.log → σ.al.find (some a) = some names → a ∈ σ.qLink ∨ Ev.linkRes a true ∈ σ.log
  rk : σ.srv.keys.Nodup

theorem R_init : R c State.init := by
  constructor <;> simp [State.init, AMap.keys]

theorem links_keys {l : List Nat} : ∀ {σ σ' : State}, links l σ = .ok σ' → σ.srv.keys.Nodup → σ'.srv.keys.Nodup := by
  induction l with
  | nil => intro σ σ' e; simp only [links] at e; cases e; exact id
  | cons a l ih =>
    intro σ σ' e h
    simp only [links] at e
    split at e
    · cases e
    · rename_i σ1 h1
      refine ih e ?_
      unfold link at h1
      split at h1
      · cases h1
      · cases h1; exact AMap.keys_set_nodup _ _ _ h

set_option maxHeartbeats 4000000 in
theorem R.step (hb : Base σ) (hk : K c σ) (hj : J c σ) (h : R c σ) (m : M c σ σ') : R c σ' := by
  obtain ⟨r0, r1, r2, rk⟩ := h
  obtain ⟨-, hpend, hon, -, -, hcr, hdc⟩ := hb
  have hi1 := hj.i1
  cases m
  case confL hc hs hi e =>
    have hk' := links_keys e rk
    obtain ⟨srv', b, e1, e2, e3, e4, e5, e6⟩ := links_spec e
    subst e1
    have hcr' : σ.confR = false := by
      cases e : σ.confR
      · rfl
      · have := hcr e; rw [hc] at this; cases this
    have ha := r0 hcr'
    exact ⟨r0, fun a names h => (by simp [ha] at h), fun a names _ _ h => (by simp [ha] at h), hk'⟩
  case confR hc hs hi hl e =>
    obtain ⟨regs', disc', e1, e2, e3, e4, -⟩ := wants_spec e
    subst e1
    have ha := r0 hc
    rcases linkedTo_cases c c.wants { σ with confR := true } with ⟨e, -⟩ | ⟨f1, f2, e⟩
    · rw [e]; exact ⟨fun _ => ha, r1, r2, rk⟩
    · rw [e]
      exact ⟨fun _ => ha, fun a names h => (by simp [ha] at h), fun a names _ _ h => (by simp [ha] at h),
        AMap.keys_set_nodup _ _ _ rk⟩
  case found n a t hq ht hs ha hr =>
    have hcr := hdc n t ht
    refine ⟨fun h => ?_, fun x names h b cb h' => ?_, fun x names g1 g2 h => ?_, AMap.keys_set_nodup _ _ _ rk⟩
    · simp only at h; rw [hcr] at h; cases h
    · simp only [AMap.find_set] at h h'
      split at h'
      · cases h'; exact ⟨n, rfl⟩
      · rename_i hx; rw [if_neg (by simpa using hx)] at h; exact r1 x names h b cb h'
    · simp only [AMap.find_set] at h
      split at h
      · rename_i hx; simp at hx; left; simp [hx]
      · simp only [List.mem_cons, List.mem_append, mem_foundEv, not_or] at g2 ⊢
        rcases r2 x names g1 g2.2.2.2 h with h | h <;> simp [h]
  case alias n a t names' hq ht hs ha =>
    have hcr := hdc n t ht
    refine ⟨fun h => ?_, fun x names h b cb h' => ?_, fun x names g1 g2 h => ?_, rk⟩
    · simp only at h; rw [hcr] at h; cases h
    · simp only [AMap.find_set] at h
      split at h
      · rename_i hx; injection hx with hx; rw [hx] at h'; exact r1 _ names' ha b cb h'
      · exact r1 x names h b cb h'
    · simp only [List.mem_cons, List.mem_append, mem_foundEv, not_or] at g2 ⊢
      have : ∃ names, σ.al.find (some x) = some names := by
        simp only [AMap.find_set] at h
        split at h
        · rename_i hx; cases hx; exact ⟨_, ha⟩
        · exact ⟨_, h⟩
      obtain ⟨nn, this⟩ := this
      rcases r2 x nn g1 g2.2.2 this with h | h <;> simp [h]
  case linkReg a r hq hr hcb =>
    refine ⟨fun h => ?_, fun x names h b cb h' => ?_, fun x names g1 g2 h => ?_, AMap.keys_set_nodup _ _ _ rk⟩
    · exact r0 h
    · simp only [AMap.find_set] at h'
      obtain ⟨op, cb'⟩ := r
      split at h'
      · rename_i hx; rw [hx] at h; cases h'; exact r1 _ names h op _ hr
      · exact r1 x names h b cb h'
    · simp only [mem_linkLog] at g2 ⊢
      have g3 : Ev.answer false ∉ σ.log := by simpa using g2
      rcases r2 x names g1 g3 h with h | h
      · rcases keep_link (a := a) h with h | h
        · exact .inl h
        · exact .inr (.inr (.inr (by simp [h])))
      · exact .inr (.inr (.inr (by simp [h])))
  case linkUser a r hq hr hcb =>
    refine ⟨fun h => ?_, fun x names h b cb h' => ?_, fun x names g1 g2 h => ?_, AMap.keys_set_nodup _ _ _ rk⟩
    · exact r0 h
    · simp only [AMap.find_set] at h'
      obtain ⟨op, cb'⟩ := r
      split at h'
      · rename_i hx; rw [hx] at h; cases h'; exact r1 _ names h op _ hr
      · exact r1 x names h b cb h'
    · have g3 : Ev.answer false ∉ σ.log := by simpa using g2
      rcases r2 x names g1 g3 h with h | h
      · rcases keep_link (a := a) h with h | h
        · exact .inl h
        · exact .inr (by simp [h])
      · exact .inr (by simp [h])
  case linkTask a n r t names' hq hr hcb ht hn hall hst =>
    refine ⟨fun h => ?_, fun x names h b cb h' => ?_, fun x names g1 g2 h => ?_, AMap.keys_set_nodup _ _ _ rk⟩
    · exact r0 h
    · simp only [AMap.find_set] at h'
      obtain ⟨op, cb'⟩ := r
      split at h'
      · rename_i hx; rw [hx] at h; cases h'; exact r1 _ names h op _ hr
      · exact r1 x names h b cb h'
    · have g3 : Ev.answer false ∉ σ.log := fun h => g2 (by simp [h])
      rcases r2 x names g1 g3 h with h | h
      · rcases keep_link (a := a) h with h | h
        · exact .inl h
        · exact .inr (by simp [h])
      · exact .inr (by simp [h])
  case linkErr a r hq hr hcb =>
    refine ⟨r0, fun x names h b cb h' => ?_, fun x names g1 g2 h => ?_, filter_keys _ rk⟩
    · simp only [AMap.find_erase] at h'
      split at h'
      · cases h'
      · exact r1 x names h b cb h'
    · exfalso
      obtain ⟨cb, hp⟩ := hpend a hq
      rcases hi1 g1 (hon g1 a cb hp).2.1 with h | h
      · exact g2 (by simp [h])
      · exact g2 (by simp [h])
  case linkTaskErr a n r t names' hq hr hcb ht hn hall hst =>
    refine ⟨r0, fun x names h b cb h' => ?_, fun x names g1 g2 h => ?_, filter_keys _ rk⟩
    · simp only [AMap.find_erase] at h'
      split at h'
      · cases h'
      · exact r1 x names h b cb h'
    · simp only at g1
      exact absurd (by simp [g1]) g2
  case linkTaskDown a n r t names' hq hr hcb ht hn hall hst =>
    exact ⟨r0, r1, fun x names g1 => absurd g1 hst, rk⟩
  case setOp a r hs hr hn =>
    refine ⟨r0, fun x names h b cb h' => ?_, fun x names g1 => absurd g1 hs, AMap.keys_set_nodup _ _ _ rk⟩
    simp only [AMap.find_set] at h'
    obtain ⟨op, cb'⟩ := r
    split at h'
    · rename_i hx; rw [hx] at h; cases h'; exact r1 _ names h op _ hr
    · exact r1 x names h b cb h'
  case forget a r h1 h2 =>
    refine ⟨r0, fun x names h b cb h' => ?_, r2, filter_keys _ rk⟩
    simp only [AMap.find_erase] at h'
    split at h'
    · cases h'
    · exact r1 x names h b cb h'
  case names hs hr hd => exact ⟨r0, r1, fun x names g1 => by simp [shutNames, hs] at g1, rk⟩
  case namesEnd hs hr hd => exact ⟨fun _ => rfl, fun x names h => by simp at h, fun x names g1 => by simp [shutNames, hs] at g1, rk⟩
  case client b hs hr => exact ⟨r0, fun x names h b cb h' => by simp at h', fun x names g1 => by simp [hs] at g1, by simp [AMap.keys]⟩
  case foundDown n a t d hq hfd hdk ht hs =>
    exact ⟨r0, r1, fun x names g1 => absurd g1 (by assumption), rk⟩
  case shut hs => exact ⟨r0, r1, fun x names g1 => (by cases g1), rk⟩
  case finI hs _ _ _ => exact ⟨r0, r1, fun x names g1 => (by cases g1), rk⟩
  case start hs => exact ⟨r0, r1, fun x names g1 => (by cases g1), rk⟩
  case finish hs _ => exact ⟨r0, r1, fun x names g1 => (by cases g1), rk⟩
  case dropLink n hs => exact ⟨r0, r1, fun x names g1 => by simp [hs] at g1, rk⟩
  all_goals
    refine ⟨r0, r1, fun x names g1 g2 h => ?_, rk⟩
    simp only [List.mem_cons, not_or, reduceCtorEq, false_or, not_false_eq_true, true_and] at g2 ⊢
    first
      | exact r2 x names g1 g2 h
      | exact r2 x names g1 g2.2 h
      | exact absurd rfl g2.1

/-- everything -/
structure Inv (c : Conf) (σ : State) : Prop where
  b : Base σ
  u : Uniq σ
  k : K c σ
  e : Expl σ.log
  o : Once σ
  d : D c σ
  a : Asked c σ
  j : J c σ
  r : R c σ

theorem inv_init : Inv c State.init := ⟨base_init, uniq_init, K_init, expl_init, once_init, D_init, asked_init, J_init, R_init⟩

theorem Inv.step (hg : c.Good) (h : Inv c σ) (m : M c σ σ') : Inv c σ' :=
  ⟨h.b.step m, h.u.step m, h.k.step hg h.b h.u m, expl_step h.k h.e m, once_step h.k h.e h.o m, h.d.step hg h.b h.u h.k m, asked_step h.u h.d h.a m,
    h.j.step hg h.b h.k h.d h.a m, h.r.step h.b h.k h.j m⟩

theorem Inv.steps (hg : c.Good) (h : Inv c σ) (m : Ms c σ σ') : Inv c σ' := by
  induction m with
  | refl => exact h
  | tail _ m ih => exact ih.step hg m

theorem Reach.mono {P Q : State → Op → Prop} (hpq : ∀ σ op, P σ op → Q σ op) (h : Reach c P σ) : Reach c Q σ := by
  induction h with
  | init => exact .init
  | step op _ hp e ih => exact .step op ih (hpq _ _ hp) e

theorem Reach.inv (hg : c.Good) (h : Reach c NoPoke σ) : Inv c σ := by
  induction h with
  | init => exact inv_init
  | step op _ hp e ih =>
    refine ih.steps hg (sim_step ih.b ?_ e)
    cases op <;> first | rfl | exact absurd hp (by simp [NoPoke])

end Verif.RegPlugin
