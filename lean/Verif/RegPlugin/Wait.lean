import Verif.RegPlugin.All
/-!
# What a pending name waits for
-/

namespace Verif.RegPlugin
open Verif

variable {c : Conf} {σ σ' : State}

structure W (c : Conf) (σ : State) : Prop where
  w0 : σ.confR = false → ∀ v, σ.vars v = none
  w1 : σ.st = .initializing → Ev.answer false ∉ σ.log → ∀ n t, σ.disc.find n = some t →
    σ.srv.find c.reg = some ⟨false, .registry⟩ ∨ n ∈ σ.qDisc ∨ ∃ a, Ev.discRes n (some a) ∈ σ.log ∧ (a ∈ σ.qLink ∨ Late n a σ.log)
  w2 : σ.st = .initializing → Ev.answer false ∉ σ.log → ∀ n a, σ.regs.find n = some ⟨a, .registering⟩ →
    σ.srv.find c.reg = some ⟨false, .registry⟩ ∨ n ∈ σ.qReg
  w3 : σ.st = .initializing → ∀ n, n ∈ σ.qReg → ∃ a, σ.regs.find n = some ⟨a, .registering⟩
  w4 : σ.st = .initializing → ∀ n, n ∈ σ.qDisc → ∃ t, σ.disc.find n = some t
  w5 : σ.st = .initialized ∨ σ.st = .operational → σ.qReg = [] ∧ σ.qDisc = [] ∧ σ.qLink = []
  w6 : ∀ n t, σ.disc.find n = some t → (∀ a, Ev.discRes n (some a) ∉ σ.log) → σ.vars t.v = none
  w7 : σ.st = .initializing → ∀ a names, a ∈ σ.qLink → σ.al.find (some a) = some names → ∀ m, m ∈ names → ∃ t, σ.disc.find m = some t
  w8 : σ.confR = false → ∀ a r, σ.srv.find a = some r → a ∈ c.links
  w9 : σ.confL = false → σ.srv = []

theorem W_init : W c State.init := by
  constructor <;> simp [State.init]

theorem late_cons {n a : Nat} {e : Ev} {l : List Ev} (h : Late n a l) : Late n a (e :: l) := h.mono (es := [e])

theorem late_new {n a : Nat} {l : List Ev} (h : Ev.linkRes a true ∈ l) : Late n a (.discRes n (some a) :: l) := ⟨[], l, rfl, h⟩

set_option maxHeartbeats 8000000 in
theorem W.step (hg : c.Good) (hi : Inv c σ) (h : W c σ) (m : M c σ σ') : W c σ' := by
  obtain ⟨w0, w1, w2, w3, w4, w5, w6, w7, w8, w9⟩ := h
  obtain ⟨bnd, bpend, bon, brl, brr, bcr, bdc⟩ := hi.b
  obtain ⟨k0, q0, qd, qr, q1, q2, ra, q3, k1, k2, k3, k4⟩ := hi.k
  obtain ⟨r0, r1, r2, rk⟩ := hi.r
  have j4 := hi.j.j4
  have i1 := hi.j.i1
  have lm := fun (n a : Nat) (e : Ev) => @late_cons n a e
  have la := fun (n a : Nat) (es : List Ev) => @Late.mono n a es
  have w9' : ∀ {P : Prop} (a : Nat) (r : Srv), σ.srv.find a = some r → σ.confL = false → P := by
    intro P a r h1 h2
    rw [w9 h2] at h1; cases h1
  have vne : ∀ n n' t t', σ.disc.find n = some t → σ.disc.find n' = some t' → n ≠ n' → t.v ≠ t'.v := by
    intro n n' t t' h1 h2 h3 h4
    exact h3 (hg.1 _ _ _ _ _ _ _ _ (k0 _ _ h1) (k0 _ _ h2) (.inr h4)).1
  cases m
  case confL hc hs hi e =>
    obtain ⟨srv', b, e1, e2, e3, e4, e5, e6⟩ := links_spec e
    subst e1
    have hcr' : σ.confR = false := by
      cases e : σ.confR
      · rfl
      · have := bcr e; rw [hc] at this; cases this
    obtain ⟨g1, g2, g3, g4, g5, g6, g7, g8, g9⟩ := q0 hcr'
    have ha := r0 hcr'
    simp only at e2 e4 e6
    clear lm la vne w9' j4 i1 k0 qd qr q1 q2 ra q3 k1 k2 k3 k4 r0 r1 r2 rk bnd bpend bon brl brr bcr bdc q0
    constructor <;> simp_all
  case confR hc hs hi hl e =>
    obtain ⟨regs', disc', e1, e2, e3, e4, -⟩ := wants_spec e
    have ha := r0 hc
    obtain ⟨g1, g2, g3, g4, g5, g6, g7, g8, g9⟩ := q0 hc
    subst e1
    rcases linkedTo_cases c c.wants { σ with confR := true } with ⟨e, f⟩ | ⟨f1, f2, e⟩
    · have hw : c.wants = [] := by rcases f with f | f
                                   · exact f
                                   · simp only at f; rw [g3] at f; cases f
      rw [e]
      rw [hw] at e3 e4
      clear lm la vne w9' j4 i1 k0 qd qr q1 q2 ra q3 k1 k2 k3 k4 r0 r1 r2 rk bnd bpend bon brl brr bcr bdc q0
      constructor <;> simp_all
    · rw [e]
      clear lm la vne w9' j4 i1 k0 qd qr q1 q2 ra q3 k1 k2 k3 k4 r0 r1 r2 rk bnd bpend bon brl brr bcr bdc q0
      constructor <;> simp_all
  case linkReg a r hq hr hcb =>
    have hf : ∀ e, (∀ n, e ≠ Ev.discover n true) → (∀ n, e ≠ Ev.discover n false) → (∀ n x, e ≠ Ev.register n x) → e ≠ Ev.linkRes a true →
        (e ∈ (onLink true { σ with qLink := rm σ.qLink a, log := .linkRes a true :: σ.log }).log ↔ e ∈ σ.log) := by
      intro e he1 he1' he2 he3
      rw [mem_linkLog]
      constructor
      · rintro (⟨n, t, hm, -⟩ | ⟨n, r, hm, -⟩ | hm)
        · cases ht : t.delayed <;> rw [ht] at hm
          · exact absurd hm (he1' n)
          · exact absurd hm (he1 n)
        · exact absurd hm (he2 _ _)
        · rcases List.mem_cons.1 hm with hm | hm
          · exact absurd hm he3
          · exact hm
      · intro h; exact .inr (.inr (by simp [h]))
    have hfd := fun n x => hf (.discRes n x) (by simp) (by simp) (by simp) (by simp)
    have hkd : ∀ n, n ∈ σ.disc.keys ↔ ∃ t, σ.disc.find n = some t := fun n => mem_keys
    have hkr : ∀ n, n ∈ σ.regs.keys ↔ ∃ t, σ.regs.find n = some t := fun n => mem_keys
    obtain ⟨cb, hp⟩ := bpend a hq
    have hrr : r = ⟨false, .registry⟩ := by rw [hp] at hr; cases hr; simp only at hcb; rw [hcb]
    subst hrr
    have hreg : ∀ n r, σ.regs.find n = some r → r.st = .registering := by
      intro n r h
      cases e : r.st with
      | registering => rfl
      | operational =>
        obtain ⟨x, y⟩ := r
        simp only at e; subst e
        exact absurd (hi.d.d1 n x h) ((q3 a hr).2.2.2 n true)
    refine ⟨w0, ?_, ?_, ?_, ?_, ?_, ?_, ?_, ?_, w9' a _ hr⟩
    · intro _ _ n t h
      simp only [onLink, if_true, go_find] at h
      obtain ⟨t', h, -⟩ := h
      right; left
      simp only [onLink, if_true, List.mem_append, hkd]
      exact .inr ⟨t', h⟩
    · intro _ _ n x h
      right
      simp only [onLink, if_true, List.mem_append, hkr]
      exact .inr ⟨_, h⟩
    · intro _ n h
      simp only [onLink, if_true, List.mem_append, hkr] at h ⊢
      rcases h with h | ⟨⟨x, y⟩, h⟩
      · rw [(q3 a hr).2.1] at h; cases h
      · have := hreg n _ h
        simp only at this; subst this
        exact ⟨x, h⟩
    · intro _ n h
      simp only [onLink, if_true, List.mem_append, hkd, go_find] at h ⊢
      rcases h with h | ⟨t, h⟩
      · rw [(q3 a hr).1] at h; cases h
      · exact ⟨_, t, h, rfl⟩
    · intro hs
      rw [(w5 hs).2.2] at hq; cases hq
    · intro n t h1 h2
      simp only [onLink, if_true, go_find] at h1 ⊢
      obtain ⟨t', h1, rfl⟩ := h1
      exact w6 n t' h1 (fun x hx => h2 x ((hfd _ _).2 hx))
    · intro hs x names h1 h2 m hm
      simp only [onLink, if_true, go_find] at h1 h2 ⊢
      obtain ⟨t, ht⟩ := w7 hs x names (rm_le h1) h2 m hm
      exact ⟨_, t, ht, rfl⟩
    · intro hc x y h
      simp only [AMap.find_set] at h
      split at h
      · rename_i hx; subst hx; exact w8 hc _ _ hr
      · exact w8 hc _ _ h
  case names hs hr hd =>
    refine ⟨w0, fun g => ?_, fun g => ?_, fun g => ?_, fun g => ?_, fun g => ?_, ?_, fun g => ?_, w8, w9⟩ <;> (try simp [shutNames, hs] at g)
    intro n t h1 h2
    obtain ⟨t', h3, rfl⟩ := shut_find' hi.u.d h1
    exact w6 n t' h3 (fun a h => h2 a (mem_shutLog.2 (.inr (.inr h))))
  case namesEnd hs hr hd =>
    refine ⟨w0, fun g => ?_, fun g => ?_, fun g => ?_, fun g => ?_, fun g => ?_, ?_, fun g => ?_, w8, w9⟩ <;> (try simp [shutNames, hs] at g)
    intro n t h1 h2
    obtain ⟨t', h3, rfl⟩ := shut_find' hi.u.d h1
    exact w6 n t' h3 (fun a h => h2 a (mem_shutLog.2 (.inr (.inr h))))
  case found n a t hq ht hs ha hr =>
    have hcR := bdc n t ht
    refine ⟨fun h => ?_, ?_, ?_, w3, ?_, fun h => ?_, ?_, ?_, fun h => ?_, fun h => (by simp only at h; rw [bcr hcR] at h; cases h)⟩
    · simp only at h; rw [hcR] at h; cases h
    · intro _ hf m t' hm
      by_cases hmn : m = n
      · subst hmn
        right; right
        exact ⟨a, by simp, by simp⟩
      · simp only [List.mem_cons, List.mem_append, mem_foundEv, not_or] at hf ⊢
        rcases w1 hs hf.2.2.2 m t' hm with h | h | ⟨x, h1, h2⟩
        · left
          simp only [AMap.find_set]
          split
          · rename_i hx; rw [hx, hr] at h; cases h
          · exact h
        · exact .inr (.inl ((mem_rm qd).2 ⟨hmn, h⟩))
        · refine .inr (.inr ⟨x, by simp [h1], ?_⟩)
          rcases h2 with h2 | h2
          · exact .inl (by simp [h2])
          · exact .inr (late_cons ((late_cons h2).mono))
    · intro _ hf m x hm
      simp only [List.mem_cons, List.mem_append, mem_foundEv, not_or] at hf ⊢
      rcases w2 hs hf.2.2.2 m x hm with h | h
      · left
        simp only [AMap.find_set]
        split
        · rename_i hx; rw [hx, hr] at h; cases h
        · exact h
      · exact .inr h
    · intro _ m hm
      exact w4 hs m (rm_le hm)
    · simp only [hs] at h; simp at h
    · intro m t' h1 h2
      by_cases hmn : m = n
      · subst hmn; exact absurd (by simp) (h2 a)
      · simp only [State.put]
        rw [if_neg (vne _ _ _ _ h1 ht hmn)]
        exact w6 m t' h1 (fun x hx => h2 x (by simp [hx]))
    · intro _ x names h1 h2 m hm
      simp only [AMap.find_set] at h2
      split at h2
      · cases h2; rw [List.mem_singleton.1 hm]; exact ⟨t, ht⟩
      · rename_i hx
        simp only [List.mem_append, List.mem_singleton] at h1
        exact w7 hs x names (h1.resolve_right (fun h => hx (by rw [h]))) h2 m hm
    · simp only at h; rw [hcR] at h; cases h
  case alias n a t names hq ht hs ha =>
    have hcR := bdc n t ht
    refine ⟨fun h => ?_, ?_, ?_, w3, ?_, fun h => ?_, ?_, ?_, fun h => ?_, w9⟩
    · simp only at h; rw [hcR] at h; cases h
    · intro _ hf m t' hm
      simp only [List.mem_cons, List.mem_append, mem_foundEv, not_or] at hf ⊢
      by_cases hmn : m = n
      · subst hmn
        right; right
        refine ⟨a, by simp, ?_⟩
        rcases r2 a names hs hf.2.2 ha with h | h
        · exact .inl h
        · exact .inr (late_new h).mono
      · rcases w1 hs hf.2.2 m t' hm with h | h | ⟨x, h1, h2⟩
        · exact .inl h
        · exact .inr (.inl ((mem_rm qd).2 ⟨hmn, h⟩))
        · refine .inr (.inr ⟨x, by simp [h1], ?_⟩)
          rcases h2 with h2 | h2
          · exact .inl h2
          · exact .inr (late_cons h2).mono
    · intro _ hf m x hm
      simp only [List.mem_cons, List.mem_append, mem_foundEv, not_or] at hf ⊢
      exact w2 hs hf.2.2 m x hm
    · intro _ m hm
      exact w4 hs m (rm_le hm)
    · simp only [hs] at h; simp at h
    · intro m t' h1 h2
      by_cases hmn : m = n
      · subst hmn; exact absurd (by simp) (h2 a)
      · simp only [State.put]
        rw [if_neg (vne _ _ _ _ h1 ht hmn)]
        exact w6 m t' h1 (fun x hx => h2 x (by simp [hx]))
    · intro _ x names h1 h2 m hm
      simp only [AMap.find_set] at h2
      split at h2
      · rename_i hx; injection hx with hx
        rw [hx] at h1
        cases h2
        rcases List.mem_append.1 hm with hm | hm
        · exact w7 hs _ _ h1 ha m hm
        · rw [List.mem_singleton.1 hm]; exact ⟨t, ht⟩
      · exact w7 hs x names h1 h2 m hm
    · simp only at h; rw [hcR] at h; cases h
  case foundDown n a t d hq hfd hdk ht hs =>
    refine ⟨fun h => ?_, fun g => absurd g (by assumption), fun g => absurd g (by assumption), fun g => absurd g (by assumption),
      fun g => absurd g (by assumption), fun h => ?_, ?_, fun g => absurd g (by assumption), w8, w9⟩
    · simp only at h; have := bdc n t (by assumption); rw [h] at this; cases this
    · rw [(w5 h).2.1] at hq; cases hq
    · intro m t' h1 h2
      have h3 : σ.disc.find m = some t' := by
        have := ht m
        grind
      by_cases hmn : m = n
      · subst hmn; exact absurd (by simp) (h2 a)
      · simp only [State.put]
        rw [if_neg (vne _ _ _ _ h3 (by assumption) hmn)]
        exact w6 m t' h3 (fun x hx => h2 x (by simp [hx]))
  case linkTask a n r t names hq hr hcb ht hn hall hst =>
    obtain ⟨op, cb⟩ := r
    simp only at hcb; subst hcb
    have hn' := hn
    rw [k3 _ _ _ ht (k2 _ _ _ hr)] at hn
    have hfind : ∀ m, (eraseNames n t σ).find m = if m ∈ names then none else σ.disc.find m := by
      intro m; rw [erase_find, hn']
    obtain ⟨a', e1, hdn⟩ := k1 _ _ hn
    cases e1
    refine ⟨w0, ?_, ?_, w3, ?_, fun h => ?_, ?_, ?_, ?_, w9' a _ hr⟩
    · intro _ hf m t' hm
      simp only [List.mem_cons, List.mem_append, mem_callEvs, not_or] at hf ⊢
      simp only [hfind] at hm
      split at hm
      · cases hm
      · rename_i hmn
        rcases w1 hst hf.2.2 m t' hm with h | h | ⟨x, h1, h2⟩
        · left
          simp only [AMap.find_set]
          split
          · rename_i hx; rw [hx, hr] at h; cases h
          · exact h
        · exact .inr (.inl h)
        · refine .inr (.inr ⟨x, by simp [h1], ?_⟩)
          rcases h2 with h2 | h2
          · refine .inl ((mem_rm bnd).2 ⟨?_, h2⟩)
            rintro rfl
            obtain ⟨nn, g1, g2⟩ := k4 m x hst h1
            rw [hn] at g1; cases g1
            exact hmn g2
          · exact .inr (late_cons h2).mono
    · intro _ hf m x hm
      simp only [List.mem_cons, List.mem_append, mem_callEvs, not_or] at hf ⊢
      rcases w2 hst hf.2.2 m x hm with h | h
      · left
        simp only [AMap.find_set]
        split
        · rename_i hx; rw [hx, hr] at h; cases h
        · exact h
      · exact .inr h
    · intro _ m hm
      obtain ⟨t', ht'⟩ := w4 hst m hm
      refine ⟨t', ?_⟩
      simp only [hfind]
      rw [if_neg]
      · exact ht'
      · exact fun hmn => q1 m _ hm (hdn m hmn)
    · simp only [hst] at h; simp at h
    · intro m t' h1 h2
      exact w6 m t' (erase_le _ _ _ _ _ h1) (fun x hx => h2 x (by simp [hx]))
    · intro _ x names' h1 h2 m hm
      have h1' := (mem_rm bnd).1 h1
      obtain ⟨t', ht'⟩ := w7 hst x names' h1'.2 h2 m hm
      refine ⟨t', ?_⟩
      simp only [hfind]
      rw [if_neg]
      · exact ht'
      · intro hmn
        have g1 := k3 m t' a ht' (hdn m hmn)
        obtain ⟨y, g2, g3⟩ := k1 _ _ h2
        cases g2
        have g4 := k3 m t' x ht' (g3 m hm)
        rw [g1] at g4; cases g4
        exact h1'.1 rfl
    · intro h x y hf
      simp only [AMap.find_set] at hf
      split at hf
      · rename_i hx; rw [hx]; exact w8 h _ _ hr
      · exact w8 h _ _ hf
  case linkTaskErr a n r t names hq hr hcb ht hn hall hst =>
    obtain ⟨op, cb⟩ := r
    simp only at hcb; subst hcb
    have hn' := hn
    rw [k3 _ _ _ ht (k2 _ _ _ hr)] at hn
    have hfind : ∀ m, (eraseNames n t σ).find m = if m ∈ names then none else σ.disc.find m := by
      intro m; rw [erase_find, hn']
    obtain ⟨a', e1, hdn⟩ := k1 _ _ hn
    cases e1
    refine ⟨w0, ?_, ?_, w3, ?_, fun h => ?_, ?_, ?_, ?_, w9' a _ hr⟩
    · intro g hf; simp only at g; exact absurd (by simp [g]) hf
    · intro g hf; simp only at g; exact absurd (by simp [g]) hf
    · intro hs m hm
      obtain ⟨t', ht'⟩ := w4 hs m hm
      refine ⟨t', ?_⟩
      simp only [hfind]
      rw [if_neg]
      · exact ht'
      · exact fun hmn => q1 m _ hm (hdn m hmn)
    · rw [(w5 h).2.2] at hq; cases hq
    · intro m t' h1 h2
      exact w6 m t' (erase_le _ _ _ _ _ h1) (fun x hx => h2 x (by simp [hx]))
    · intro hs x names' h1 h2 m hm
      have h1' := (mem_rm bnd).1 h1
      obtain ⟨t', ht'⟩ := w7 hs x names' h1'.2 h2 m hm
      refine ⟨t', ?_⟩
      simp only [hfind]
      rw [if_neg]
      · exact ht'
      · intro hmn
        have g1 := k3 m t' a ht' (hdn m hmn)
        obtain ⟨y, g2, g3⟩ := k1 _ _ h2
        cases g2
        have g4 := k3 m t' x ht' (g3 m hm)
        rw [g1] at g4; cases g4
        exact h1'.1 rfl
    · intro h x y hf
      simp only [AMap.find_erase] at hf
      split at hf
      · cases hf
      · exact w8 h _ _ hf
  case linkTaskDown a n r t names hq hr hcb ht hn hall hst =>
    refine ⟨w0, fun g => absurd g hst, fun g => absurd g hst, fun g => absurd g hst, fun g => absurd g hst, fun h => ?_, ?_, fun g => absurd g hst, w8, w9⟩
    · rw [(w5 h).2.2] at hq; cases hq
    · intro m t' h1 h2
      exact w6 m t' (erase_le _ _ _ _ _ h1) (fun x hx => h2 x (by simp [hx]))
  case lostInit n t hq ht hs hi =>
    have hv := w6 n t ht (fun a => q1 n _ hq)
    have hal : σ.al.find (σ.vars t.v) = none := by
      cases e : σ.al.find (σ.vars t.v) with
      | none => rfl
      | some names => obtain ⟨a, h1, -⟩ := k1 _ _ e; rw [hv] at h1; cases h1
    have hfind : ∀ m, (eraseNames n t σ).find m = if m = n then none else σ.disc.find m := by
      intro m; rw [erase_find, hal]
    refine ⟨w0, fun _ h => absurd (by simp) h, fun _ h => absurd (by simp) h, w3, ?_, fun h => ?_, ?_, ?_, w8, w9⟩
    · intro _ m hm
      have hm' := (mem_rm qd).1 hm
      simp only [hfind, if_neg hm'.1]
      exact w4 hs m hm'.2
    · simp only [hs] at h; simp at h
    · intro m t' h1 h2
      exact w6 m t' (erase_le _ _ _ _ _ h1) (fun x hx => h2 x (by simp [hx]))
    · intro _ x names h1 h2 m hm
      obtain ⟨t', ht'⟩ := w7 hs x names h1 h2 m hm
      refine ⟨t', ?_⟩
      simp only [hfind]
      rw [if_neg]
      · exact ht'
      · rintro rfl
        obtain ⟨y, -, g3⟩ := k1 _ _ h2
        exact q1 m _ hq (g3 m hm)
  case lostDown n t hq ht hs =>
    refine ⟨w0, fun g => absurd g hs, fun g => absurd g hs, fun g => absurd g hs, fun g => absurd g hs, fun h => ?_, ?_, fun g => absurd g hs, w8, w9⟩
    · rw [(w5 h).2.1] at hq; cases hq
    · intro m t' h1 h2
      exact w6 m t' (erase_le _ _ _ _ _ h1) (fun x hx => h2 x (by simp [hx]))
  case finI hs _ h1 h2 =>
    refine ⟨w0, fun g => (by cases g), fun g => (by cases g), fun g => (by cases g), fun g => (by cases g), fun _ => ⟨?_, ?_, ?_⟩, ?_, fun g => (by cases g), w8, w9⟩
    · refine List.eq_nil_iff_forall_not_mem.2 (fun n hn => ?_)
      obtain ⟨a, h⟩ := w3 hs n hn
      exact (j4 hs h2).2 n _ h rfl
    · refine List.eq_nil_iff_forall_not_mem.2 (fun n hn => ?_)
      obtain ⟨t, h⟩ := w4 hs n hn
      rw [(j4 hs h2).1] at h; cases h
    · refine List.eq_nil_iff_forall_not_mem.2 (fun a hn => ?_)
      obtain ⟨cb, h⟩ := bpend a hn
      have := (bon hs a cb h).1
      rw [h1] at this; cases this
    · intro m t' h1 h2
      exact w6 m t' h1 (fun x hx => h2 x (by simp [initFinish, hx]))
  all_goals (constructor <;> simp only [rm] <;>
    grind [AMap.find_set, AMap.find_erase, List.Nodup.mem_erase_iff, List.Nodup.erase, AMap.find_nil])

/-- links asked for by the user -/
def Own (c : Conf) (σ : State) : Prop := ∀ a b, σ.srv.find a = some ⟨b, .user⟩ → a ∈ c.links

theorem own_step (h : Own c σ) (m : M c σ σ') : Own c σ' := by
  unfold Own at *
  cases m
  case confL hc hs hi e =>
    obtain ⟨srv', b, e1, e2, e3, e4, e5, e6⟩ := links_spec e
    subst e1
    simp only at e4
    intro a b; simp only [e4]
    split
    · intro _; assumption
    · exact h a b
  case confR hc hs hi hl e =>
    obtain ⟨regs', disc', e1, e2, e3, e4, -⟩ := wants_spec e
    subst e1
    rcases linkedTo_cases c c.wants { σ with confR := true } with ⟨e, f⟩ | ⟨f1, f2, e⟩
    · rw [e]; exact h
    · rw [e]; simp only [AMap.find_set]; grind
  case linkReg a r hq hr hcb => simp only [AMap.find_set]; grind
  case names => exact h
  case namesEnd => exact h
  case linkUser a r hq hr hcb =>
    obtain ⟨x, y⟩ := r
    simp only [AMap.find_set]; grind
  case linkTask a n r t names hq hr hcb ht hn hall hst =>
    obtain ⟨x, y⟩ := r
    simp only [AMap.find_set]; grind
  case setOp a r hs hr hn =>
    obtain ⟨x, y⟩ := r
    simp only [AMap.find_set]; grind
  case finI => exact h
  all_goals (first | exact h | (simp only [AMap.find_set, AMap.find_erase, AMap.find_nil]; grind))

theorem Reach.w (hg : c.Good) (h : Reach c NoPoke σ) : W c σ ∧ Own c σ := by
  induction h with
  | init => exact ⟨W_init, fun a b h => by cases h⟩
  | @step σ σ' op hr hp e ih =>
    have hi := hr.inv hg
    have m := sim_step hi.b (op := op) (by cases op <;> first | rfl | exact absurd hp (by simp [NoPoke])) e
    clear e
    induction m with
    | refl => exact ih
    | tail m1 m2 ih2 => exact ⟨ih2.1.step hg (hi.steps hg m1) m2, own_step ih2.2 m2⟩

end Verif.RegPlugin
