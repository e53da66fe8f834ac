import Verif.SupTeardown.Ops
/-! # The queue is drained after the plugins have been deactivated (C72) -/

namespace Verif.SupTeardown
open Verif

/-- the number of subscriptions -/
def size (c : Cfg) (s : State) : Nat := ((List.range c.n).map (fun p => (s.own p).length)).sum + s.points.length

theorem sum_upd (own : Nat → List Sub) (p : Nat) (l : List Sub) (n : Nat) (hp : p < n) :
    ((List.range n).map (fun q => (upd own p l q).length)).sum + (own p).length =
      ((List.range n).map (fun q => (own q).length)).sum + l.length := by
  induction n with
  | zero => omega
  | succ n ih =>
    rw [List.range_succ, List.map_append, List.map_append, List.sum_append, List.sum_append]
    simp only [List.map_cons, List.map_nil, List.sum_cons, List.sum_nil]
    by_cases e : p = n
    · subst e
      rw [upd_same]
      have : ∀ m, m ≤ p → ((List.range m).map (fun q => (upd own p l q).length)).sum =
          ((List.range m).map (fun q => (own q).length)).sum := by
        intro m
        induction m with
        | zero => intro _; rfl
        | succ m ihm =>
          intro hm
          rw [List.range_succ, List.map_append, List.map_append, List.sum_append, List.sum_append, ihm (by omega)]
          simp only [List.map_cons, List.map_nil, List.sum_cons, List.sum_nil]
          rw [upd_ne _ _ (by omega : m ≠ p)]
      rw [this p (Nat.le_refl _)]
      omega
    · rw [upd_ne _ _ (Ne.symm e)]
      have := ih (by omega)
      omega

/-- there is always something in the queue -/
theorem B_queue {c : Cfg} {s : State} (h : B c s none none) (hk : K c s) : s.queue ≠ [] := by
  intro hq
  have hun : ∀ x, x ∈ s.uns → ¬ Live s.own s.points x := by
    intro x hx hv
    rcases h.base.un x hx hv with q | q
    · rw [hq] at q; cases q
    · cases q
  have hpts : s.points = [] := by
    cases e : s.points with
    | nil => rfl
    | cons x l =>
      have hx : x ∈ s.points := by rw [e]; simp
      obtain ⟨q1, q2⟩ := h.pts x hx
      exact absurd (Or.inr ⟨hx, q1⟩) (hun x q2)
  have hmap : s.mapping = [] := by
    cases e : s.mapping with
    | nil => rfl
    | cons x l =>
      have := (h.base.mp x).mp (by simp [e])
      rw [hpts] at this; cases this.1
  have hown : ∀ p, p < c.n → p ≠ c.life → s.own p = [] := by
    intro p hp hl
    cases e : s.own p with
    | nil => rfl
    | cons x l =>
      have hx : x ∈ s.own p := by rw [e]; simp
      have hxu : x ∈ s.uns := by
        by_cases ec : p = c.cm
        · rcases h.cmc with q | q
          · exact absurd hmap q.1
          · exact q.2.2 x (by rw [← ec]; exact hx)
        · exact h.qs p hp hl ec x hx
      exact absurd (Or.inl ⟨p, hx⟩) (hun x hxu)
  rcases h.lf with q | ⟨_, q, e1, _⟩
  · rcases hk q.2.2 with z | ⟨p, z1, z2, z3⟩
    · exact z hpts
    · obtain ⟨d1, d2, _⟩ := h.dn p z1 z2 (by simp)
      rw [z3] at d1
      exact d2 d1.symm (hown p z1 z2)
  · rw [hq] at e1
    have := (List.append_eq_nil_iff.mp e1.symm).2
    exact h.ne (List.reverse_eq_nil_iff.mp this)

theorem B_hInt {c : Cfg} {s : State} {fl : Option Sub} {p0 : Option Nat} (h : B c s fl p0) : hInt c ∈ s.own c.life := by
  have key : s.own c.life <+: core c c.life := by
    rcases h.lf with q | ⟨_, q, _, _, e3, _⟩
    · rw [q.1]; exact List.prefix_refl _
    · exact e3
  rw [core_life] at key
  cases e : s.own c.life with
  | nil => exact absurd e h.ne
  | cons x l =>
    rw [e] at key
    obtain ⟨t, ht⟩ := key
    simp only [List.cons_append, List.cons.injEq] at ht
    rw [ht.1]
    simp [hInt]

/-- a plugin other than the lifetime plugin loses a subscription -/
theorem forget_B {c : Cfg} {env : Env} {s : State} {x : Sub} {rest : List Sub} {p : Nat} (h : B c s none none) (hk : K c s)
    (hq : s.queue = x :: rest) (hx : x ∈ s.own p) (hl : p ≠ c.life) :
    ∃ s', forget c env p x { s with queue := rest } = .ok s' ∧ B c s' none none ∧ K c s' ∧
      s'.log = .removed x :: s.log ∧ s'.kids = s.kids ∧ s'.conf = s.conf ∧ size c s' < size c s := by
  have hb : Base c s.own s.points s.uns (x :: rest) s.mapping s.next s.log s.conf none := hq ▸ h.base
  have hxu : x ∈ s.uns := hb.qu x (by simp)
  have hp : p < c.n := by
    by_cases e : p < c.n
    · exact e
    · have := h.base.ob p (by omega)
      rw [this] at hx; cases hx
  have hb1 := hb.forget hx
  have hlife : upd s.own p ((s.own p).erase x) c.life = s.own c.life := upd_ne _ _ (Ne.symm hl)
  have hact : s.active p = true := by
    cases e : s.active p
    · have := (h.dn p hp hl (by simp)).2.2 e
      rw [this] at hx; cases hx
    · rfl
  have hln : s.lifeNull = false := by
    cases e : s.lifeNull
    · rfl
    · have := h.ln e p hp hl (by simp)
      rw [hact] at this; cases this
  have hcm1 : p = c.cm → s.mapping = [] ∧ s.selfRec = false ∧ ∀ x, x ∈ s.own c.cm → x ∈ s.uns := by
    intro e
    rcases h.cmc with q | q
    · exfalso
      refine q.2.2.2 x ?_ hxu
      rw [← q.2.2.1, ← e]; exact hx
    · exact q
  have hsz : ∀ s' : State, s'.own = upd s.own p ((s.own p).erase x) → s'.points = s.points → size c s' < size c s := by
    intro s' e1 e2
    simp only [size, e1, e2]
    have := sum_upd s.own p ((s.own p).erase x) c.n hp
    have hlen := List.length_erase_of_mem hx
    have : 0 < (s.own p).length := List.length_pos_of_mem hx
    omega
  -- the clauses that do not depend on whether it was the last one
  have hqs : ∀ q, q < c.n → q ≠ c.life → q ≠ c.cm → ∀ y, y ∈ upd s.own p ((s.own p).erase x) q → y ∈ s.uns := by
    intro q a b d y hy
    by_cases e : q = p
    · subst e
      rw [upd_same] at hy
      exact h.qs q a b d y (List.mem_of_mem_erase hy)
    · rw [upd_ne _ _ e] at hy
      exact h.qs q a b d y hy
  have hcmc : (s.mapping ≠ [] ∧ s.selfRec = true ∧ upd s.own p ((s.own p).erase x) c.cm = core c c.cm ∧
        ∀ x, x ∈ core c c.cm → x ∉ s.uns) ∨
      (s.mapping = [] ∧ s.selfRec = false ∧ ∀ y, y ∈ upd s.own p ((s.own p).erase x) c.cm → y ∈ s.uns) := by
    by_cases e : p = c.cm
    · obtain ⟨q1, q2, q3⟩ := hcm1 e
      refine Or.inr ⟨q1, q2, ?_⟩
      intro y hy
      rw [← e, upd_same] at hy
      exact q3 y (by rw [← e]; exact List.mem_of_mem_erase hy)
    · rw [upd_ne _ _ (Ne.symm e)]
      exact h.cmc
  have hlf : ∀ L, L = s.own c.life → (L = core c c.life ∧ s.lifeNull = false ∧ ∀ x, x ∈ L → x ∉ s.uns) ∨
      (s.points = [] ∧ ∃ q, rest = q ++ L.reverse ∧ (∀ x, x ∈ q → owner c x ≠ some c.life) ∧
        L <+: core c c.life ∧ (q ≠ [] → L = core c c.life)) := by
    intro L hL
    subst hL
    rcases h.lf with q | ⟨e0, q, e1, e2, e3, e4⟩
    · exact Or.inl q
    · refine Or.inr ⟨e0, ?_⟩
      rw [hq] at e1
      cases q with
      | nil =>
        exfalso
        have hm : x ∈ (s.own c.life).reverse := by
          have : x ∈ x :: rest := by simp
          rw [e1] at this
          simpa using this
        have h1 := h.base.ow c.life x (by simpa using hm)
        have h2 := h.base.ow p x hx
        rw [h1] at h2
        exact hl (Option.some.inj h2).symm
      | cons y q =>
        simp only [List.cons_append, List.cons.injEq] at e1
        exact ⟨q, e1.2, fun z hz => e2 z (by simp [hz]), e3, fun _ => e4 (by simp)⟩
  simp only [forget]
  by_cases he : (s.own p).erase x = []
  · rw [if_pos he, if_pos h.st]
    have hB : B c { s with queue := rest, own := upd s.own p ((s.own p).erase x), log := .removed x :: s.log, deact := upd s.deact p false }
        none (some p) := by
      refine ⟨hb1, h.st, h.kd, h.rl, h.ro, h.al, ?_, ?_, ?_, ?_, hqs, h.pts, hcmc, h.km, ?_, ?_⟩
      · exact (upd_ne s.deact false (Ne.symm hl)).trans h.dlf
      · show upd s.own p ((s.own p).erase x) c.life ≠ []
        rw [hlife]; exact h.ne
      · intro q a b d
        have hqp : q ≠ p := fun e => d (by rw [e])
        have := h.dn q a b (by simp)
        simpa [upd, hqp] using this
      · intro q hq'
        obtain rfl := Option.some.inj hq'
        exact ⟨upd_same _ _ _, by show upd s.own p _ p = []; rw [upd_same]; exact he, hact, hl, hp⟩
      · exact hlf _ hlife
      · intro hf
        have : s.lifeNull = true := hf
        rw [hln] at this; cases this
    obtain ⟨s3, g1, g2, g3, g4⟩ := cont_B env (sc c env 1) hB hln
    have : sc c env depth { s with queue := rest, own := upd s.own p ((s.own p).erase x), log := .removed x :: s.log, deact := upd s.deact p false } = .ok s3 := g1
    rw [this]
    obtain ⟨z1, z2, z3, z4, z5, z6, z7, z8, z9, z10, z11⟩ := g4
    obtain ⟨w1, w2, w3, w4, w5⟩ := g2.d0 p rfl
    refine ⟨_, rfl, ?_, g3, z4, z11, z6, hsz _ z1 z3⟩
    refine ⟨g2.base, g2.st, g2.kd, g2.rl, g2.ro, ?_, g2.dlf, g2.ne, ?_, ?_, g2.qs, g2.pts, g2.cmc, g2.km, g2.lf, ?_⟩
    · exact (upd_ne s3.active false (Ne.symm hl)).trans g2.al
    · intro q a b _
      by_cases e : q = p
      · subst e
        refine ⟨by simp [upd, w1], by simp [upd], fun _ => w2⟩
      · have := g2.dn q a b (fun z => e (Option.some.inj z).symm)
        simpa [upd, e] using this
    · intro q hq'; cases hq'
    · intro hf q a b _
      by_cases e : q = p
      · rw [e]; exact upd_same _ _ _
      · exact (upd_ne s3.active false e).trans (g2.ln hf q a b (fun z => e (Option.some.inj z).symm))
  · rw [if_neg he]
    refine ⟨_, rfl, ?_, ?_, rfl, rfl, rfl, hsz _ rfl rfl⟩
    · refine ⟨hb1, h.st, h.kd, h.rl, h.ro, h.al, h.dlf, ?_, ?_, ?_, hqs, h.pts, hcmc, h.km, ?_, h.ln⟩
      · show upd s.own p ((s.own p).erase x) c.life ≠ []
        rw [hlife]; exact h.ne
      · intro q a b d
        obtain ⟨d1, d2, d3⟩ := h.dn q a b d
        by_cases e : q = p
        · subst e
          refine ⟨d1, fun _ => ?_, fun z => ?_⟩
          · show upd s.own q _ q ≠ []
            rw [upd_same]; exact he
          · rw [show s.active q = false from z] at hact; cases hact
        · refine ⟨d1, fun z => ?_, fun z => ?_⟩
          · show upd s.own p _ q ≠ []
            rw [upd_ne _ _ e]; exact d2 z
          · show upd s.own p _ q = []
            rw [upd_ne _ _ e]; exact d3 z
      · intro q hq'; cases hq'
      · exact hlf _ hlife
    · intro hh
      refine hk ?_
      intro y hy
      refine hh y ?_
      show y ∈ upd s.own p _ c.life
      rw [hlife]; exact hy

/-- the last round -/
theorem last_round {c : Cfg} {s : State} (env : Env) (cont : State → Except Err State) (hst : s.st = .shuttingDown)
    (rl : s.react c.life = true) (ro : ∀ p, p < c.n → p ≠ c.life → s.react p = false) (hp : s.points = [])
    (ho : s.own c.life = []) (hd : ∀ p, p < c.n → s.deact p = false) :
    shutdownContinue c env cont s = .ok { s with react := upd s.react c.life false, st := .shutDown, log := .reply :: s.log } := by
  obtain ⟨hi, lo, eo, o1, o2⟩ := order_split c c.life (life_lt c)
  have hv : vote c env cont c.life s = .ok (s, true) := by
    simp only [vote]
    rw [if_pos trivial, if_pos ⟨hp, ho⟩]
  simp only [shutdownContinue]
  rw [if_pos hst, eo, pass_skip]
  · rw [pass_agree rl hv, show lo = lo ++ [] by simp, pass_skip]
    · simp only [pass, finish]
      rw [if_pos]
      rw [List.filter_eq_nil_iff]
      intro p hp
      rw [hd p ((mem_order c p).mp hp)]
      simp
    · intro p hp
      have hpl := (o2 p).mp hp
      have hne : p ≠ c.life := by omega
      exact (upd_ne s.react false hne).trans (ro p (Nat.lt_trans hpl (life_lt c)) hne)
  · intro p hp
    have := (o1 p).mp hp
    exact ro p this.2 (by omega)

/-- the lifetime plugin loses one of its own subscriptions -/
theorem forget_life {c : Cfg} {env : Env} {s : State} {x : Sub} {rest : List Sub} (h : B c s none none)
    (hq : s.queue = x :: rest) (hx : x ∈ s.own c.life) :
    ∃ s', forget c env c.life x { s with queue := rest } = .ok s' ∧
      ((B c s' none none ∧ K c s' ∧ s'.log = .removed x :: s.log ∧ size c s' < size c s) ∨
        (Done c s' ∧ s'.log = .reply :: .removed x :: s.log)) ∧ s'.kids = s.kids ∧ s'.conf = s.conf := by
  have hb : Base c s.own s.points s.uns (x :: rest) s.mapping s.next s.log s.conf none := hq ▸ h.base
  have hxu : x ∈ s.uns := hb.qu x (by simp)
  have hb1 := hb.forget hx
  obtain ⟨hpt, q, e1, e2, e3, e4⟩ : s.points = [] ∧ ∃ q, s.queue = q ++ (s.own c.life).reverse ∧
      (∀ x, x ∈ q → owner c x ≠ some c.life) ∧ s.own c.life <+: core c c.life ∧ (q ≠ [] → s.own c.life = core c c.life) := by
    rcases h.lf with q | q
    · exact absurd hxu (q.2.2 x hx)
    · exact q
  have hq0 : q = [] := by
    cases q with
    | nil => rfl
    | cons y q =>
      rw [hq] at e1
      simp only [List.cons_append, List.cons.injEq] at e1
      exact absurd (h.base.ow _ x hx) (by rw [e1.1]; exact e2 y (by simp))
  subst hq0
  rw [List.nil_append, hq] at e1
  have hown : s.own c.life = rest.reverse ++ [x] := by
    have := congrArg List.reverse e1
    rw [List.reverse_reverse] at this
    rw [← this]; simp
  have hnd := h.base.on c.life
  have her : (s.own c.life).erase x = rest.reverse := by
    rw [hown] at hnd ⊢
    rw [List.nodup_append] at hnd
    have hnx : x ∉ rest.reverse := fun z => hnd.2.2 x z x (by simp) rfl
    rw [List.erase_append_right _ hnx]
    simp
  have hmap : s.mapping = [] := by
    cases e : s.mapping with
    | nil => rfl
    | cons y l =>
      have := (h.base.mp y).mp (by simp [e])
      rw [hpt] at this; cases this.1
  have hcmc : s.selfRec = false ∧ ∀ x, x ∈ s.own c.cm → x ∈ s.uns := by
    rcases h.cmc with z | z
    · exact absurd hmap z.1
    · exact z.2
  have hup : ∀ p, p ≠ c.life → upd s.own c.life ((s.own c.life).erase x) p = s.own p := fun p hp => upd_ne _ _ hp
  have hothers : ∀ p, p < c.n → p ≠ c.life → s.own p = [] := by
    intro p hp hl
    cases e : s.own p with
    | nil => rfl
    | cons y l =>
      exfalso
      have hy : y ∈ s.own p := by rw [e]; simp
      have hyu : y ∈ s.uns := by
        by_cases ec : p = c.cm
        · exact hcmc.2 y (by rw [← ec]; exact hy)
        · exact h.qs p hp hl ec y hy
      rcases h.base.un y hyu (Or.inl ⟨p, hy⟩) with z | z
      · rw [hq, e1] at z
        have h1 := h.base.ow c.life y (by simpa using z)
        rw [h.base.ow p y hy] at h1
        exact hl (Option.some.inj h1)
      · cases z
  have hinact : ∀ p, p < c.n → p ≠ c.life → s.deact p = false := by
    intro p hp hl
    obtain ⟨d1, d2, _⟩ := h.dn p hp hl (by simp)
    cases e : s.active p
    · rw [d1, e]
    · exact absurd (hothers p hp hl) (d2 e)
  simp only [forget]
  by_cases he : (s.own c.life).erase x = []
  · rw [if_pos he, if_pos h.st]
    have hrest : rest = [] := by
      rw [her] at he
      exact List.reverse_eq_nil_iff.mp he
    have hdn : ∀ p, p < c.n → upd s.deact c.life false p = false := by
      intro p hp
      by_cases e : p = c.life
      · rw [e]; exact upd_same _ _ _
      · exact (upd_ne s.deact false e).trans (hinact p hp e)
    have hsc : sc c env depth { s with queue := rest, own := upd s.own c.life ((s.own c.life).erase x), log := .removed x :: s.log, deact := upd s.deact c.life false } =
        .ok { s with queue := rest, own := upd s.own c.life ((s.own c.life).erase x), deact := upd s.deact c.life false, react := upd s.react c.life false, st := .shutDown, log := .reply :: .removed x :: s.log } := by
      exact last_round env (sc c env 1) h.st h.rl h.ro hpt (by exact (upd_same s.own c.life _).trans he) hdn
    rw [hsc]
    refine ⟨_, rfl, Or.inr ⟨?_, rfl⟩, rfl, rfl⟩
    have hown0 : ∀ p, upd s.own c.life ((s.own c.life).erase x) p = [] := by
      intro p
      by_cases e : p = c.life
      · rw [e, upd_same]; exact he
      · rw [hup p e]
        by_cases hp : p < c.n
        · exact hothers p hp e
        · exact h.base.ob p (by omega)
    refine ⟨rfl, hown0, hpt, hrest, hmap, h.kd, hcmc.1, ?_, ?_, ?_, hdn⟩
    · exact (upd_ne s.react false (shut_ne_life c)).trans (h.ro _ (shut_lt c) (shut_ne_life c))
    · intro y
      have h1 : (Ev.reply :: Ev.removed x :: s.log).count (.made y) = (Ev.removed x :: s.log).count (.made y) :=
        List.count_cons_of_ne (by simp)
      have h2 : (Ev.reply :: Ev.removed x :: s.log).count (.removed y) = (Ev.removed x :: s.log).count (.removed y) :=
        List.count_cons_of_ne (by simp)
      show (Ev.reply :: Ev.removed x :: s.log).count (.made y) = (Ev.reply :: Ev.removed x :: s.log).count (.removed y) ∧
        (Ev.reply :: Ev.removed x :: s.log).count (.removed y) ≤ 1
      rw [h1, h2]
      rcases hb1.ct y with ⟨⟨p, z⟩ | ⟨z, _⟩, _⟩ | ⟨_, z1, z2, _⟩ | ⟨_, z1, z2⟩
      · rw [hown0 p] at z; cases z
      · rw [hpt] at z; cases z
      · omega
      · omega
    · exact ⟨_, rfl, hb1.nr⟩
  · rw [if_neg he]
    refine ⟨_, rfl, Or.inl ⟨?_, ?_, rfl, ?_⟩, rfl, rfl⟩
    · refine ⟨hb1, h.st, h.kd, h.rl, h.ro, h.al, h.dlf, ?_, ?_, ?_, ?_, h.pts, ?_, h.km, ?_, h.ln⟩
      · show upd s.own c.life _ c.life ≠ []
        rw [upd_same]; exact he
      · intro p a b d
        have := h.dn p a b d
        show _ ∧ (_ → upd s.own c.life _ p ≠ []) ∧ (_ → upd s.own c.life _ p = [])
        rw [hup p b]; exact this
      · intro p hp; cases hp
      · intro p a b d y hy
        have hy : y ∈ upd s.own c.life ((s.own c.life).erase x) p := hy
        rw [hup p b] at hy
        exact h.qs p a b d y hy
      · refine Or.inr ⟨hmap, hcmc.1, ?_⟩
        intro y hy
        have hy : y ∈ upd s.own c.life ((s.own c.life).erase x) c.cm := hy
        rw [hup _ (cm_ne_life c)] at hy
        exact hcmc.2 y hy
      · refine Or.inr ⟨hpt, [], ?_, by simp, ?_, by simp⟩
        · show rest = [] ++ (upd s.own c.life _ c.life).reverse
          rw [upd_same, her]; simp
        · show upd s.own c.life _ c.life <+: _
          rw [upd_same, her]
          rw [hown] at e3
          exact (List.prefix_append _ _).trans e3
    · intro hh
      exfalso
      rw [her] at he
      obtain ⟨y, hy⟩ := mem_of_ne_nil he
      refine hh y ?_ ?_
      · show y ∈ upd s.own c.life _ c.life
        rw [upd_same, her]; exact hy
      · exact hb.qu y (by simp [show y ∈ rest by simpa using hy])
    · simp only [size]
      have := sum_upd s.own c.life ((s.own c.life).erase x) c.n (life_lt c)
      have hlen := List.length_erase_of_mem hx
      have : 0 < (s.own c.life).length := List.length_pos_of_mem hx
      omega

/-- the front of the queue is taken by the lifetime plugin -/
theorem take_B {c : Cfg} {s : State} {x : Sub} {rest : List Sub} (h : B c s none none) (hq : s.queue = x :: rest)
    (hnp : np x = true) (hm : x ∉ s.mapping ∨ s.mapping.erase x ≠ []) :
    B c { s with queue := rest, mapping := s.mapping.erase x } (some x) none := by
  have hb : Base c s.own s.points s.uns (x :: rest) s.mapping s.next s.log s.conf none := hq ▸ h.base
  have hx : x ∈ s.points := by
    rcases h.base.ql x (by rw [hq]; simp) with ⟨p, hp⟩ | ⟨hp, _⟩
    · have := h.base.ow p x hp
      rw [np_owner hnp] at this; cases this
    · exact hp
  have hne : s.points ≠ [] := by intro e; rw [e] at hx; cases hx
  refine ⟨hb.unmap hx hnp, h.st, h.kd, h.rl, h.ro, h.al, h.dlf, h.ne, h.dn, h.d0, h.qs, h.pts, ?_, ?_, ?_, h.ln⟩
  · rcases h.cmc with q | q
    · refine Or.inl ⟨?_, q.2⟩
      rcases hm with z | z
      · show s.mapping.erase x ≠ []
        rw [List.erase_of_not_mem z]; exact q.1
      · exact z
    · refine Or.inr ⟨?_, q.2⟩
      show s.mapping.erase x = []
      rw [q.1]; rfl
  · intro y a hy ha; exact h.km y a (List.mem_of_mem_erase hy) ha
  · rcases h.lf with q | q
    · exact Or.inl q
    · exact absurd q.1 hne

theorem lifeForget_size {c : Cfg} {s s' : State} {x : Sub} (h : B c s (some x) none) (he : lifeForget c x s = .ok s') :
    size c s' < size c s := by
  have hx := (h.base.fx x rfl).2.2.1
  have hlen := List.length_erase_of_mem hx
  have hpos : 0 < s.points.length := List.length_pos_of_mem hx
  simp only [lifeForget] at he
  rw [if_pos ⟨hx, h.al⟩] at he
  have key : s'.own = s.own ∧ s'.points = s.points.erase x := by
    split at he
    · simp only [baseDeactivate] at he
      rw [if_pos h.al, if_neg h.ne] at he
      split at he
      · cases he
      · obtain ⟨l', U, e, _⟩ := markAll_spec (s.own c.life).reverse { s with points := s.points.erase x, log := .removed x :: s.log }
        rw [e] at he
        obtain rfl := Except.ok.inj he
        exact ⟨rfl, rfl⟩
    · obtain rfl := Except.ok.inj he
      exact ⟨rfl, rfl⟩
  simp only [size, key.1, key.2]
  omega

/-- the front of the queue is processed when the plugins have been deactivated -/
theorem confirm_B {c : Cfg} {env : Env} {s : State} (h : B c s none none) (hk : K c s) (hl : SLg s) :
    ∃ s', confirm c env s = .ok s' ∧ SLg s' ∧ s'.conf = s.conf ∧
      ((B c s' none none ∧ K c s' ∧ size c s' < size c s) ∨ Done c s') := by
  simp only [confirm]
  cases hq : s.queue with
  | nil => exact absurd hq (B_queue h hk)
  | cons x rest =>
    simp only []
    rw [if_pos (B_hInt h)]
    have hxq : x ∈ s.queue := by rw [hq]; simp
    have hxu := h.base.qu x hxq
    have hlive := h.base.ql x hxq
    have hplug : ∀ p, owner c x = some p → x ∈ s.own p := by
      intro p ho
      rcases hlive with ⟨q, hp⟩ | ⟨_, hp⟩
      · have := h.base.ow q x hp
        rw [ho] at this
        rw [Option.some.inj this]; exact hp
      · rw [np_owner hp] at ho; cases ho
    have hreply : ∀ l : List Ev, Lg l s.kids s.conf → Lg (.reply :: l) s.kids s.conf := by
      intro l z
      refine ⟨?_, ?_, ?_, ?_⟩
      · intro a ha
        rcases z.cr a (by simpa using ha) with w | w
        · exact Or.inl (by simp [w])
        · exact Or.inr w
      · intro a h0 ha; simp [z.gn a h0 (by simpa using ha)]
      · intro a ty k h0 ha; simp [z.rm a ty k h0 (by simpa using ha)]
      · intro a ha; simp [z.cf a ha]
    cases x with
    | plug p k =>
      have hx := hplug p rfl
      simp only []
      rw [if_pos hx]
      by_cases e : p = c.life
      · subst e
        obtain ⟨s', e1, e2, e3, e4⟩ := forget_life (env := env) h hq hx
        refine ⟨s', e1, ?_, e4, ?_⟩
        · show Lg s'.log s'.kids s'.conf
          rcases e2 with ⟨_, _, q, _⟩ | ⟨_, q⟩
          · rw [q, e3, e4]; exact hl.removed (by simp [mapOf])
          · rw [q, e3, e4]; exact hreply _ (hl.removed (by simp [mapOf]))
        · rcases e2 with ⟨q1, q2, _, q3⟩ | ⟨q1, _⟩
          · exact Or.inl ⟨q1, q2, q3⟩
          · exact Or.inr q1
      · obtain ⟨s', e1, e2, e3, e4, e5, e6, e7⟩ := forget_B (env := env) h hk hq hx e
        refine ⟨s', e1, ?_, e6, Or.inl ⟨e2, e3, e7⟩⟩
        show Lg s'.log s'.kids s'.conf
        rw [e4, e5, e6]; exact hl.removed (by simp [mapOf])
    | user k =>
      have hx := hplug c.starter rfl
      simp only []
      rw [if_pos hx]
      obtain ⟨s', e1, e2, e3, e4, e5, e6, e7⟩ := forget_B (env := env) h hk hq hx (starter_ne_life c)
      refine ⟨s', e1, ?_, e6, Or.inl ⟨e2, e3, e7⟩⟩
      show Lg s'.log s'.kids s'.conf
      rw [e4, e5, e6]; exact hl.removed (by simp [mapOf])
    | anon k =>
      have hne : Sub.anon k ∉ s.mapping := by
        intro e
        have := (h.base.mp _).mp e
        simp [mapOf] at this
      have h1 := take_B h hq (by rfl) (Or.inl hne)
      rw [List.erase_of_not_mem hne] at h1
      obtain ⟨s', e1, e2, e3, e4, e5, e6, e7⟩ := lifeForget_B h1
      have hsz := lifeForget_size h1 e1
      refine ⟨s', e1, ?_, e6, Or.inl ⟨e2, e3, hsz⟩⟩
      show Lg s'.log s'.kids s'.conf
      rw [e4, e5, e6]; exact hl.removed (by simp [mapOf])
    | map a ty k =>
      have hx : Sub.map a ty k ∈ s.mapping := by
        refine (h.base.mp _).mpr ⟨?_, rfl, by simp⟩
        rcases hlive with ⟨p, hp⟩ | ⟨hp, _⟩
        · have := h.base.ow p _ hp
          simp [owner] at this
        · exact hp
      have ha0 : a = 0 := h.km _ a hx rfl
      subst ha0
      have hany : s.mapping.any (fun y => mapOf y == some 0) = true :=
        List.any_eq_true.mpr ⟨_, hx, by simp [mapOf]⟩
      obtain ⟨hm, hsr, hoc, hcu⟩ : s.mapping ≠ [] ∧ s.selfRec = true ∧ s.own c.cm = core c c.cm ∧ ∀ x, x ∈ core c c.cm → x ∉ s.uns := by
        rcases h.cmc with q | q
        · exact q
        · rw [q.1] at hx; cases hx
      have hact : s.active c.cm = true := by
        cases e : s.active c.cm
        · have := (h.dn c.cm (cm_lt c) (cm_ne_life c) (by simp)).2.2 e
          rw [hoc] at this
          exact absurd this (core_cm c)
        · rfl
      have hcm : ∃ s2, cmUnsub c env 0 (.map 0 ty k) { s with queue := rest } = .ok s2 ∧ SLg s2 ∧
          s2.conf = s.conf ∧ s2.kids = s.kids ∧ size c s2 = size c s ∧ B c s2 (some (.map 0 ty k)) none := by
        simp only [cmUnsub]
        rw [if_pos ⟨hact, hany⟩]
        by_cases hleft : (s.mapping.erase (.map 0 ty k)).any (fun y => mapOf y == some 0) = true
        · have hnm : s.mapping.erase (.map 0 ty k) ≠ [] := by
            intro e; rw [e] at hleft; simp at hleft
          rw [if_pos hleft]
          simp only []
          rw [if_pos hact, if_neg]
          · exact ⟨_, rfl, hl, rfl, rfl, rfl, take_B h hq (by rfl) (Or.inr hnm)⟩
          · rintro (q | q)
            · simp [actors, hsr] at q
            · exact hnm q
        · rw [if_neg hleft]
          have hnil : s.mapping.erase (.map 0 ty k) = [] := by
            cases e : s.mapping.erase (.map 0 ty k) with
            | nil => rfl
            | cons y l =>
              exfalso
              apply hleft
              have hy : y ∈ s.mapping.erase (.map 0 ty k) := by rw [e]; simp
              have hym := List.mem_of_mem_erase hy
              have h1 := ((h.base.mp y).mp hym).2.1
              cases hyo : mapOf y with
              | none => rw [hyo] at h1; cases h1
              | some b =>
                have := h.km y b hym hyo
                subst this
                exact List.any_eq_true.mpr ⟨y, hy, by simp [hyo]⟩
          have hxp : Sub.map 0 ty k ∈ s.points := ((h.base.mp _).mp hx).1
          have hpne : s.points ≠ [] := by intro e; rw [e] at hxp; cases hxp
          have hrm : removeChild c (sc c env depth) 0 { s with queue := rest, mapping := s.mapping.erase (.map 0 ty k) } =
              .ok { s with queue := rest, mapping := s.mapping.erase (.map 0 ty k), selfRec := false, log := .gone 0 :: s.log } := by
            simp only [removeChild]
            rw [if_pos (Or.inl ⟨trivial, hsr⟩), if_pos trivial]
            have ha : actors { s with queue := rest, mapping := s.mapping.erase (.map 0 ty k), selfRec := false, log := .gone 0 :: s.log } ≤ 1 := by
              simp [actors, h.kd]
            rw [if_pos ⟨h.st, ha⟩]
            have : sc c env depth { s with queue := rest, mapping := s.mapping.erase (.map 0 ty k), selfRec := false, log := .gone 0 :: s.log } =
                .ok { s with queue := rest, mapping := s.mapping.erase (.map 0 ty k), selfRec := false, log := .gone 0 :: s.log } :=
              cont_id env (sc c env 1) h.st h.rl h.ro h.al h.pts hpne
            rw [this]
            simp only []
            rw [if_pos hact]
          rw [hrm]
          simp only []
          rw [if_pos hact, if_pos (Or.inr hnil)]
          have hln : s.lifeNull = false := by
            cases e : s.lifeNull
            · rfl
            · have := h.ln e c.cm (cm_lt c) (cm_ne_life c) (by simp)
              rw [hact] at this; cases this
          simp only [baseDeactivate]
          rw [if_pos hact, if_neg (by rw [hoc]; exact core_cm c), if_neg (by rw [hln]; simp)]
          obtain ⟨l', U, e, h1, h2, h3, h4⟩ := markAll_spec (s.own c.cm).reverse
            { s with queue := rest, mapping := s.mapping.erase (.map 0 ty k), selfRec := false, log := .gone 0 :: s.log }
          rw [e]
          have hlg : Lg (.gone 0 :: s.log) s.kids s.conf := by
            refine ⟨?_, ?_, ?_, ?_⟩
            · intro a ha
              rcases hl.cr a (by simpa using ha) with w | w
              · exact Or.inl (by simp [w])
              · exact Or.inr w
            · intro a h0 ha
              have : Ev.gone a ∈ s.log := by
                rcases List.mem_cons.mp ha with w | w
                · exact absurd (by simpa using w) h0
                · exact w
              simp [hl.gn a h0 this]
            · intro a ty k h0 ha; simp [hl.rm a ty k h0 (by simpa using ha)]
            · intro a ha; simp [hl.cf a ha]
          refine ⟨_, rfl, hlg, rfl, rfl, rfl, ?_⟩
          have hb : Base c s.own s.points s.uns (.map 0 ty k :: rest) s.mapping s.next s.log s.conf none := hq ▸ h.base
          have hb1 := ((hb.unmap hxp (by rfl)).event (e := .gone 0) (by simp) (by simp))
          obtain ⟨hol, _, hlu⟩ : s.own c.life = core c c.life ∧ s.lifeNull = false ∧ ∀ x, x ∈ s.own c.life → x ∉ s.uns := by
            rcases h.lf with q | q
            · exact q
            · exact absurd q.1 hpne
          refine ⟨?_, h.st, h.kd, h.rl, h.ro, h.al, h.dlf, h.ne, h.dn, h.d0, ?_, ?_, ?_, ?_, ?_, h.ln⟩
          · refine hb1.mark (l := (s.own c.cm).reverse) (fun x hx => Or.inl ⟨c.cm, by simpa using hx⟩) ?_ h1 h2 h3
            intro y a hy ha
            have := h.base.ow c.cm y (by simpa using hy)
            rw [np_owner (np_of_map (by rw [ha]; rfl))] at this; cases this
          · intro p a b d y hy; exact (h1 y).mpr (Or.inl (h.qs p a b d y hy))
          · intro y hy; exact ⟨(h.pts y hy).1, (h1 y).mpr (Or.inl (h.pts y hy).2)⟩
          · exact Or.inr ⟨hnil, rfl, fun y hy => (h1 y).mpr (Or.inr (by simpa using hy))⟩
          · intro y a hy ha; exact h.km y a (List.mem_of_mem_erase hy) ha
          · refine Or.inl ⟨hol, hln, ?_⟩
            intro y hy hU
            rcases (h1 y).mp hU with z | z
            · exact hlu y hy z
            · have w1 := h.base.ow c.cm y (by simpa using z)
              rw [h.base.ow c.life y hy] at w1
              exact cm_ne_life c (Option.some.inj w1).symm
      obtain ⟨s2, e1, e2, e3, e4, e5, e6⟩ := hcm
      simp only []
      rw [e1]
      simp only []
      obtain ⟨s', f1, f2, f3, f4, f5, f6, f7⟩ := lifeForget_B e6
      have hsz := lifeForget_size e6 f1
      refine ⟨s', f1, ?_, f6.trans e3, Or.inl ⟨f2, f3, by omega⟩⟩
      show Lg s'.log s'.kids s'.conf
      rw [f4, f5, f6]
      exact e2.removed (by intro b hb; simp only [mapOf, Option.some.injEq] at hb; exact Or.inl hb.symm)

end Verif.SupTeardown
