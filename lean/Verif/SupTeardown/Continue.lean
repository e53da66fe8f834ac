import Verif.SupTeardown.Phases
/-! # What a round of `shutdown_continue` does in either phase (C72) -/

namespace Verif.SupTeardown
open Verif

/-- what stays the same in a round when the plugins have been deactivated -/
def Kept (s s' : State) : Prop :=
  s'.own = s.own ∧ s'.mapping = s.mapping ∧ s'.points = s.points ∧ s'.log = s.log ∧ s'.selfRec = s.selfRec ∧
    s'.conf = s.conf ∧ s'.asked = s.asked ∧ s'.st = s.st ∧ s'.active = s.active ∧ s'.deact = s.deact ∧ s'.kids = s.kids

theorem mem_of_ne_nil {α : Type} {l : List α} (h : l ≠ []) : ∃ x, x ∈ l := by
  cases l with
  | nil => exact absurd rfl h
  | cons x l => exact ⟨x, by simp⟩

theorem ready_congr (c : Cfg) {s s' : State} (h : s'.deact = s.deact) : ready c s' = ready c s := by
  simp only [ready, h]

theorem lifeVote_B {c : Cfg} {s : State} {fl : Option Sub} {p0 : Option Nat} (env : Env)
    (cont : State → Except Err State) (h : B c s fl p0) (hn : s.lifeNull = false) :
    ∃ s', vote c env cont c.life s = .ok (s', false) ∧ B c s' fl p0 ∧ K c s' ∧ Kept s s' := by
  simp only [vote]
  rw [if_pos trivial, if_neg (fun x => h.ne x.2)]
  have hf : s.points.filter np = s.points := List.filter_eq_self.mpr fun x hx => (h.pts x hx).1
  have hm : markAll s.points.reverse s = s := markAll_nop _ _ fun x hx => (h.pts x (by simpa using hx)).2
  simp only [lifeUnsub, hf, hm]
  rw [if_pos h.al]
  by_cases hr : s.points = [] ∧ ready c s = true
  · rw [if_pos (show s.points = [] ∧ ready c { s with points := s.points } = true from hr)]
    obtain ⟨hp, hr⟩ := hr
    rw [ready_iff c s h.dlf] at hr
    have hmap : s.mapping = [] := by
      cases e : s.mapping with
      | nil => rfl
      | cons x l =>
        have := (h.base.mp x).mp (by simp [e])
        rw [hp] at this
        cases this.1
    have hoff : ∀ p, p < c.n → p ≠ c.life → p0 ≠ some p → s.active p = false := by
      intro p a b d
      obtain ⟨h1, _⟩ := h.dn p a b d
      cases e : s.active p
      · rfl
      · rw [e] at h1
        exact absurd (hr p a h1) b
    simp only [baseDeactivate]
    rw [if_pos h.al, if_neg h.ne, if_neg (by rw [hn]; simp)]
    obtain ⟨l', U, e, h1, h2, h3, h4⟩ := markAll_spec (s.own c.life).reverse { s with points := s.points }
    rw [e]
    simp only []
    rw [if_pos h.al]
    have hU : ∀ x, x ∈ s.own c.life → x ∈ U := fun x hx => (h1 x).mpr (Or.inr (by simpa using hx))
    refine ⟨_, rfl, ?_, ?_, ⟨rfl, rfl, rfl, rfl, rfl, rfl, rfl, rfl, rfl, rfl, rfl⟩⟩
    · refine ⟨?_, h.st, h.kd, h.rl, h.ro, h.al, h.dlf, h.ne, h.dn, h.d0, ?_, ?_, ?_, h.km, ?_, ?_⟩
      · refine h.base.mark (l := (s.own c.life).reverse) (fun x hx => Or.inl ⟨c.life, by simpa using hx⟩) ?_ h1 h2 h3
        intro x a hx ha
        have := h.base.ow c.life x (by simpa using hx)
        rw [np_owner (np_of_map (by rw [ha]; rfl))] at this; cases this
      · intro p a b d x hx; exact (h1 x).mpr (Or.inl (h.qs p a b d x hx))
      · intro x hx; exact ⟨(h.pts x hx).1, (h1 x).mpr (Or.inl (h.pts x hx).2)⟩
      · rcases h.cmc with q | q
        · exact absurd hmap q.1
        · exact Or.inr ⟨q.1, q.2.1, fun x hx => (h1 x).mpr (Or.inl (q.2.2 x hx))⟩
      · refine Or.inr ⟨hp, ?_⟩
        rcases h.lf with q | ⟨_, q, e1, e2, e3, e4⟩
        · refine ⟨s.queue, ?_, ?_, ?_, fun _ => q.1⟩
          · rw [h4]
            · rw [List.Nodup, List.pairwise_reverse]
              exact (h.base.on c.life).imp fun h => Ne.symm h
            · intro x hx; exact q.2.2 x (by simpa using hx)
          · intro x hx ho
            rcases h.base.ql x hx with ⟨p, hxp⟩ | ⟨_, hxp⟩
            · have := h.base.ow p x hxp
              rw [ho] at this
              have := Option.some.inj this
              subst this
              exact q.2.2 x hxp (h.base.qu x hx)
            · rw [np_owner hxp] at ho; cases ho
          · rw [show s.own c.life = core c c.life from q.1]; exact List.prefix_refl _
        · refine ⟨q, ?_, e2, e3, e4⟩
          have : l' = [] := by
            cases e : l' with
            | nil => rfl
            | cons x l =>
              have hx := (h2 x).mp (by simp [e])
              refine absurd ?_ hx.2
              refine h.base.qu x ?_
              rw [e1]
              simp only [List.mem_append]
              exact Or.inr hx.1
          rw [this, List.append_nil]
          exact e1
      · intro _ p a b d; exact hoff p a b d
    · intro hk
      obtain ⟨x, hx⟩ := mem_of_ne_nil h.ne
      exact absurd (hU x hx) (hk x hx)
  · rw [if_neg (show ¬ (s.points = [] ∧ ready c { s with points := s.points } = true) from hr)]
    refine ⟨s, rfl, h, ?_, ⟨rfl, rfl, rfl, rfl, rfl, rfl, rfl, rfl, rfl, rfl, rfl⟩⟩
    intro _
    by_cases hp : s.points = []
    · refine Or.inr (Classical.byContradiction fun hc => hr ⟨hp, ?_⟩)
      rw [ready_iff c s h.dlf]
      intro p a b
      exact Classical.byContradiction fun d => hc ⟨p, a, d, b⟩
    · exact Or.inl hp

theorem lifeVote_DP {c : Cfg} {s : State} {fl : Option Sub} {done : Nat → Prop} (env : Env)
    (cont : State → Except Err State) (h : DP c s fl done) (hd : ∀ p, p < c.n → done p) (hr : s.react c.shut = false) :
    ∃ s', vote c env cont c.life s = .ok (s', false) ∧ B c s' fl none ∧ K c s' ∧ s'.lifeNull = false ∧
      s'.own = s.own ∧ s'.mapping = s.mapping ∧ s'.log = s.log ∧ s'.selfRec = s.selfRec ∧ s'.conf = s.conf ∧
      s'.asked = s.asked := by
  have hne : s.own c.life ≠ [] := by rw [h.ol, core_life]; simp
  have hcm := h.dn c.cm (cm_lt c) (cm_ne_life c) (hd _ (cm_lt c))
  have hcmo : s.own c.cm ≠ [] := by rw [h.oc]; exact core_cm c
  have hca : s.active c.cm = true := by
    cases e : s.active c.cm
    · exact absurd (hcm.2.2.1 e) hcmo
    · rfl
  have hcd : s.deact c.cm = true := by rw [hcm.1]; exact hca
  have hld := h.dlf (hd _ (life_lt c))
  simp only [vote]
  rw [if_pos trivial, if_neg (fun x => hne x.2)]
  simp only [lifeUnsub]
  obtain ⟨l', U, e, h1, h2, h3, h4⟩ := markAll_spec (s.points.filter np).reverse s
  rw [e, if_pos h.al]
  have hnr : ¬ (ready c { s with uns := U, queue := s.queue ++ l', points := s.points.filter np } = true) := by
    intro hh
    exact cm_ne_life c ((ready_iff c _ hld).mp hh c.cm (cm_lt c) hcd)
  rw [if_neg (fun x => hnr x.2)]
  have hmem : ∀ x, x ∈ (s.points.filter np).reverse → x ∈ s.points ∧ np x = true := by
    intro x hx
    rw [List.mem_reverse, List.mem_filter] at hx
    exact hx
  have hplug : ∀ p x, x ∈ core c p → x ∉ s.uns → x ∉ U := by
    intro p x hx hu hU
    rcases (h1 x).mp hU with hU | hU
    · exact hu hU
    · have := (hmem x hU).2
      rw [core_np c p x hx] at this; cases this
  refine ⟨_, rfl, ?_, ?_, h.ln, rfl, rfl, rfl, rfl, rfl, rfl⟩
  · refine ⟨?_, h.st, h.kd, h.rl, ?_, h.al, hld, hne, ?_, ?_, ?_, ?_, ?_, h.km, ?_, ?_⟩
    · refine (h.base.mark (l := (s.points.filter np).reverse) ?_ ?_ h1 h2 h3).filter
      · intro x hx
        exact Or.inr (hmem x hx)
      · intro x a hx ha
        by_cases hf : fl = some x
        · exact Or.inl (h.base.fx x hf).1
        · exact Or.inr (Or.inl (h.km x a ((h.base.mp x).mpr ⟨(hmem x hx).1, by rw [ha]; rfl, hf⟩) ha))
    · intro p a b
      by_cases e : p = c.shut
      · rw [e]; exact hr
      · exact h.ro p a b e
    · intro p a b _
      obtain ⟨x1, x2, x3, _⟩ := h.dn p a b (hd p a)
      exact ⟨x1, x2, x3⟩
    · intro p hp; cases hp
    · intro p a b d x hx
      exact (h1 x).mpr (Or.inl ((h.dn p a b (hd p a)).2.2.2 d x hx))
    · intro x hx
      have hx' := List.mem_filter.mp hx
      exact ⟨hx'.2, (h1 x).mpr (Or.inr (by rw [List.mem_reverse]; exact hx))⟩
    · rcases h.cmc with q | q | q
      · exact Or.inl ⟨q.1, q.2.1, h.oc, fun x hx => hplug c.cm x hx (q.2.2 x hx)⟩
      · exact Or.inr ⟨q.1, q.2.1, fun x hx => (h1 x).mpr (Or.inl (q.2.2 (hd _ (cm_lt c)) x hx))⟩
      · exact absurd (hd _ (cm_lt c)) q.2.2
    · refine Or.inl ⟨h.ol, h.ln, ?_⟩
      intro x hx
      have hx : x ∈ core c c.life := by rw [← h.ol]; exact hx
      exact hplug c.life x hx (h.olu x hx)
    · intro hf
      have : s.lifeNull = true := hf
      rw [h.ln] at this; cases this
  · intro _
    exact Or.inr ⟨c.cm, cm_lt c, cm_ne_life c, hcd⟩

theorem pass_skip {c : Cfg} {env : Env} {cont : State → Except Err State} {s : State} (l l2 : List Nat)
    (h : ∀ p, p ∈ l → s.react p = false) : pass c env cont (l ++ l2) s = pass c env cont l2 s := by
  induction l with
  | nil => rfl
  | cons p l ih =>
    have hp := h p (by simp)
    rw [List.cons_append, pass, hp, if_neg (by simp)]
    exact ih (fun q hq => h q (by simp [hq]))

theorem pass_refuse {c : Cfg} {env : Env} {cont : State → Except Err State} {s s' : State} {p : Nat} {ps : List Nat}
    (h : s.react p = true) (hv : vote c env cont p s = .ok (s', false)) : pass c env cont (p :: ps) s = .ok (s', false) := by
  rw [pass, if_pos h, hv]

theorem pass_agree {c : Cfg} {env : Env} {cont : State → Except Err State} {s s' : State} {p : Nat} {ps : List Nat}
    (h : s.react p = true) (hv : vote c env cont p s = .ok (s', true)) :
    pass c env cont (p :: ps) s = pass c env cont ps { s' with react := upd s'.react p false } := by
  rw [pass, if_pos h, hv]

/-- the lifetime plugin is asked after init_shutdown -/
theorem order_split2 (c : Cfg) : ∃ hi lo, c.order = hi ++ c.shut :: c.life :: lo ∧
    (∀ q, q ∈ hi ↔ c.shut < q ∧ q < c.n) := by
  obtain ⟨hi, lo, e, h1, h2⟩ := order_split c c.shut (shut_lt c)
  have hlo : ∃ lo2, lo = c.life :: lo2 := by
    obtain ⟨hi3, lo3, e3, h3, h4⟩ := order_split c c.life (life_lt c)
    have : hi3 = hi ++ [c.shut] ∧ lo = c.life :: lo3 := by
      have hlo0 : ∃ q l, lo = q :: l := by
        cases hl : lo with
        | nil => have := (h2 c.life).mpr (by simp [Cfg.shut]); rw [hl] at this; cases this
        | cons q l => exact ⟨q, l, rfl⟩
      obtain ⟨q, l, hl⟩ := hlo0
      have hsplit : hi ++ c.shut :: lo = hi3 ++ c.life :: lo3 := by rw [← e, ← e3]
      have hnd : (hi ++ c.shut :: lo).Nodup := by rw [← e]; exact order_nodup c
      have key : hi ++ [c.shut] = hi3 ∧ lo = c.life :: lo3 := by
        have h5 : hi ++ c.shut :: lo = (hi ++ [c.shut]) ++ lo := by simp
        rw [h5] at hsplit
        rcases List.append_eq_append_iff.mp hsplit with ⟨a, b1, b2⟩ | ⟨a, b1, b2⟩
        · cases a with
          | nil => simp at b1 b2; exact ⟨b1.symm, b2⟩
          | cons z a =>
            exfalso
            have hz : z ∈ hi3 := by rw [b1]; simp
            have hz2 : z ∈ lo := by rw [b2]; simp
            have := (h3 z).mp hz
            have := (h2 z).mp hz2
            simp only [Cfg.shut] at this
            omega
        · cases a with
          | nil => simp at b1 b2; exact ⟨b1, b2.symm⟩
          | cons z a =>
            exfalso
            have hz : z = c.life := by simp at b2; exact b2.1.symm
            subst hz
            have : c.life ∈ hi ++ [c.shut] := by rw [b1]; simp
            rcases List.mem_append.mp this with hh | hh
            · have := (h1 _).mp hh; simp only [Cfg.shut] at this; omega
            · simp [Cfg.shut] at hh
      exact ⟨key.1.symm, key.2⟩
    exact ⟨lo3, this.2⟩
  obtain ⟨lo2, hlo⟩ := hlo
  exact ⟨hi, lo2, by rw [e, hlo], h1⟩

/-- a round when the plugins have been deactivated -/
theorem cont_B {c : Cfg} {s : State} {fl : Option Sub} {p0 : Option Nat} (env : Env)
    (cont : State → Except Err State) (h : B c s fl p0) (hn : s.lifeNull = false) :
    ∃ s', shutdownContinue c env cont s = .ok s' ∧ B c s' fl p0 ∧ K c s' ∧ Kept s s' := by
  obtain ⟨hi, lo, e, h1, h2⟩ := order_split c c.life (life_lt c)
  obtain ⟨s', g1, g2, g3, g4⟩ := lifeVote_B env cont h hn
  refine ⟨s', ?_, g2, g3, g4⟩
  simp only [shutdownContinue]
  rw [if_pos h.st, e, pass_skip]
  · rw [pass, h.rl, if_pos rfl, g1]
  · intro p hp
    have := (h1 p).mp hp
    exact h.ro p this.2 (by omega)

/-- the nested round: all children and the record of the supervisor are gone -/
theorem cont_nested {c : Cfg} {s : State} {fl : Option Sub} {done : Nat → Prop} (env : Env)
    (cont : State → Except Err State) (h : DP c s fl done) (hs : s.selfRec = false) (hr : s.react c.shut = true) :
    ∃ s', shutdownContinue c env cont s = .ok s' ∧ B c s' fl none ∧ K c s' ∧ s'.lifeNull = false ∧
      s'.own = s.own ∧ s'.mapping = s.mapping ∧ s'.log = s.log ∧ s'.selfRec = s.selfRec ∧ s'.conf = s.conf ∧
      s'.asked = s.asked := by
  obtain ⟨hi, lo2, e, h1⟩ := order_split2 c
  obtain ⟨s1, g1, g2, g3, _⟩ := deactAll_DP cont c.order h (fun p hp => (mem_order c p).mp hp) (Or.inr (Or.inr hs))
  have g2' : DP c { s1 with react := upd s1.react c.shut false } fl (fun q => done q ∨ q ∈ c.order) := by
    refine ⟨g2.base, g2.st, g2.kd, ?_, ?_, g2.ln, g2.al, g2.ol, g2.olu, g2.oc, g2.nd, g2.dn, g2.dlf, g2.cmc, g2.km⟩
    · exact (upd_ne s1.react false (Ne.symm (shut_ne_life c))).trans g2.rl
    · intro p a b d; exact (upd_ne s1.react false d).trans (g2.ro p a b d)
  obtain ⟨s2, k1, k2, k3, k4, k5, k6, k7, k8, k9, k10⟩ := lifeVote_DP env cont g2'
    (fun p hp => Or.inr ((mem_order c p).mpr hp)) (upd_same _ _ _)
  obtain ⟨q1, q2, q3, q4, q5, q6, q7, q8⟩ := g3
  refine ⟨s2, ?_, k2, k3, k4, k5.trans q1, k6.trans q2, k7.trans q4, k8.trans q5, k9.trans q6, k10.trans q7⟩
  simp only [shutdownContinue]
  rw [if_pos h.st, e, pass_skip]
  · have hv : vote c env cont c.shut s = .ok (s1, true) := by
      simp only [vote]
      rw [if_neg (shut_ne_life c), if_pos trivial, g1]
    rw [pass_agree hr hv, pass_refuse g2'.rl k1]
  · intro p hp
    have := (h1 p).mp hp
    refine h.ro p this.2 ?_ ?_
    · have := this.1; simp only [Cfg.shut] at this; omega
    · omega

end Verif.SupTeardown
