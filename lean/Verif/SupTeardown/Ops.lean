import Verif.SupTeardown.Rounds
/-! # Every step keeps the invariant (C72) -/

namespace Verif.SupTeardown
open Verif

/-- what the log says about children -/
structure Lg (log : List Ev) (kids conf : List Nat) : Prop where
  cr : ∀ a, .created a ∈ log → .gone a ∈ log ∨ a ∈ kids
  gn : ∀ a, a ≠ 0 → .gone a ∈ log → .confirmed a ∈ log
  rm : ∀ a ty k, a ≠ 0 → .removed (.map a ty k) ∈ log → .confirmed a ∈ log
  cf : ∀ a, a ∈ conf → .confirmed a ∈ log

abbrev SLg (s : State) : Prop := Lg s.log s.kids s.conf

theorem Lg.ext {s s' : State} (h : SLg s) (he : Ext s s') : SLg s' := by
  obtain ⟨⟨d, e, q⟩, hk, hc⟩ := he
  have old : ∀ v : Ev, v ∈ s.log → v ∈ s'.log := by intro v hv; rw [e]; exact List.mem_append.mpr (Or.inr hv)
  have new : ∀ v : Ev, v.quiet = false → v ∈ s'.log → v ∈ s.log := by
    intro v hv hm
    rw [e] at hm
    rcases List.mem_append.mp hm with x | x
    · rw [q v x] at hv; cases hv
    · exact x
  refine ⟨?_, ?_, ?_, ?_⟩
  · intro a ha
    rw [hk]
    rcases h.cr a (new _ rfl ha) with x | x
    · exact Or.inl (old _ x)
    · exact Or.inr x
  · intro a h0 ha
    exact old _ (h.gn a h0 (new _ (by simp [Ev.quiet, h0]) ha))
  · intro a ty k h0 ha
    exact old _ (h.rm a ty k h0 (new _ rfl ha))
  · intro a ha
    rw [hc] at ha
    exact old _ (h.cf a ha)

theorem Lg.removed {log : List Ev} {kids conf : List Nat} (h : Lg log kids conf) {x : Sub}
    (hx : ∀ a, mapOf x = some a → a = 0 ∨ a ∈ conf) : Lg (.removed x :: log) kids conf := by
  refine ⟨?_, ?_, ?_, ?_⟩
  · intro a ha
    rcases h.cr a (by simpa using ha) with q | q
    · exact Or.inl (by simp [q])
    · exact Or.inr q
  · intro a h0 ha
    have := h.gn a h0 (by simpa using ha)
    simp [this]
  · intro a ty k h0 ha
    rcases List.mem_cons.mp ha with q | q
    · have e : x = .map a ty k := by simpa using q.symm
      rcases hx a (by rw [e]; rfl) with r | r
      · exact absurd r h0
      · simp [h.cf a r]
    · simp [h.rm a ty k h0 q]
  · intro a ha; simp [h.cf a ha]

theorem Lg.gone {log : List Ev} {kids conf : List Nat} (h : Lg log kids conf) {a : Nat} (ha : a ∈ conf) (kids' : List Nat)
    (hk : ∀ b, b ∈ kids → b = a ∨ b ∈ kids') : Lg (.gone a :: log) kids' conf := by
  refine ⟨?_, ?_, ?_, ?_⟩
  · intro b hb
    rcases h.cr b (by simpa using hb) with q | q
    · exact Or.inl (by simp [q])
    · rcases hk b q with r | r
      · exact Or.inl (by simp [r])
      · exact Or.inr r
  · intro b h0 hb
    rcases List.mem_cons.mp hb with q | q
    · have e : b = a := by simpa using q
      rw [e]; simp [h.cf a ha]
    · simp [h.gn b h0 q]
  · intro b ty k h0 hb
    have := h.rm b ty k h0 (by simpa using hb)
    simp [this]
  · intro b hb; simp [h.cf b hb]

/-- the supervisor has finished -/
structure Done (c : Cfg) (s : State) : Prop where
  st : s.st = .shutDown
  own : ∀ p, s.own p = []
  points : s.points = []
  queue : s.queue = []
  mapping : s.mapping = []
  kids : s.kids = []
  sr : s.selfRec = false
  rs : s.react c.shut = false
  lg : ∀ x, s.log.count (.made x) = s.log.count (.removed x) ∧ s.log.count (.removed x) ≤ 1
  rep : ∃ l, s.log = .reply :: l ∧ .reply ∉ l
  off : ∀ p, p < c.n → s.deact p = false

/-- the invariant -/
def Inv (c : Cfg) (s : State) : Prop := A c s none ∨ (B c s none none ∧ K c s) ∨ Done c s

/-- a round that changes nothing -/
theorem cont_id {c : Cfg} {s : State} (env : Env) (cont : State → Except Err State) (hst : s.st = .shuttingDown)
    (rl : s.react c.life = true) (ro : ∀ p, p < c.n → p ≠ c.life → s.react p = false) (al : s.active c.life = true)
    (pts : ∀ x, x ∈ s.points → np x = true ∧ x ∈ s.uns) (hp : s.points ≠ []) :
    shutdownContinue c env cont s = .ok s := by
  obtain ⟨hi, lo, e, h1, h2⟩ := order_split c c.life (life_lt c)
  have hv : vote c env cont c.life s = .ok (s, false) := by
    simp only [vote]
    rw [if_pos trivial, if_neg (fun x => hp x.1)]
    have hf : s.points.filter np = s.points := List.filter_eq_self.mpr fun x hx => (pts x hx).1
    have hm : markAll s.points.reverse s = s := markAll_nop _ _ fun x hx => (pts x (by simpa using hx)).2
    simp only [lifeUnsub, hf, hm]
    rw [if_pos al, if_neg (fun x => hp x.1)]
  simp only [shutdownContinue]
  rw [if_pos hst, e, pass_skip]
  · rw [pass_refuse rl hv]
  · intro p hp
    have := (h1 p).mp hp
    exact ro p this.2 (by omega)

/-- the lifetime plugin forgets the subscription in progress -/
theorem lifeForget_B {c : Cfg} {s : State} {x : Sub} (h : B c s (some x) none) :
    ∃ s', lifeForget c x s = .ok s' ∧ B c s' none none ∧ K c s' ∧ s'.log = .removed x :: s.log ∧ s'.kids = s.kids ∧
      s'.conf = s.conf ∧ s'.asked = s.asked := by
  obtain ⟨hu, hq, hx, hnp⟩ := h.base.fx x rfl
  have hxm : x ∉ s.mapping := fun e => ((h.base.mp x).mp e).2.2 rfl
  have hne : s.points ≠ [] := by intro e; rw [e] at hx; cases hx
  obtain ⟨hol, hln, hlu⟩ : s.own c.life = core c c.life ∧ s.lifeNull = false ∧ ∀ x, x ∈ s.own c.life → x ∉ s.uns := by
    rcases h.lf with q | q
    · exact q
    · exact absurd q.1 hne
  have hb := h.base.forgetNp hx hnp hu hq hxm (Or.inr rfl)
  have hcm : s.points.erase x = [] → s.mapping = [] := by
    intro e
    cases em : s.mapping with
    | nil => rfl
    | cons y l =>
      have := (hb.mp y).mp (by simp [em])
      rw [e] at this
      cases this.1
  simp only [lifeForget]
  rw [if_pos ⟨hx, h.al⟩]
  by_cases he : s.points.erase x = []
  · rw [if_pos he]
    simp only [baseDeactivate]
    rw [if_pos h.al, if_neg h.ne, if_neg (by rw [hln]; simp)]
    obtain ⟨l', U, e, h1, h2, h3, h4⟩ := markAll_spec (s.own c.life).reverse
      { s with points := s.points.erase x, log := .removed x :: s.log }
    rw [e]
    have hl' : l' = (s.own c.life).reverse := by
      refine h4 ?_ ?_
      · rw [List.Nodup, List.pairwise_reverse]
        exact (h.base.on c.life).imp fun h => Ne.symm h
      · intro y hy; exact hlu y (by simpa using hy)
    refine ⟨_, rfl, ?_, ?_, rfl, rfl, rfl, rfl⟩
    · refine ⟨?_, h.st, h.kd, h.rl, h.ro, h.al, h.dlf, h.ne, h.dn, h.d0, ?_, ?_, ?_, h.km, ?_, ?_⟩
      · refine hb.mark (l := (s.own c.life).reverse) (fun x hx => Or.inl ⟨c.life, by simpa using hx⟩) ?_ h1 h2 h3
        intro y a hy ha
        have := h.base.ow c.life y (by simpa using hy)
        rw [np_owner (np_of_map (by rw [ha]; rfl))] at this; cases this
      · intro p a b d y hy; exact (h1 y).mpr (Or.inl (h.qs p a b d y hy))
      · intro y hy
        rw [show s.points.erase x = [] from he] at hy; cases hy
      · rcases h.cmc with q | q
        · exact absurd (hcm he) q.1
        · exact Or.inr ⟨q.1, q.2.1, fun y hy => (h1 y).mpr (Or.inl (q.2.2 y hy))⟩
      · refine Or.inr ⟨he, s.queue, ?_, ?_, ?_, fun _ => hol⟩
        · rw [hl']
        · intro y hy ho
          rcases h.base.ql y hy with ⟨p, hxp⟩ | ⟨_, hxp⟩
          · have := h.base.ow p y hxp
            rw [ho] at this
            have := Option.some.inj this
            subst this
            exact hlu y hxp (h.base.qu y hy)
          · rw [np_owner hxp] at ho; cases ho
        · rw [show s.own c.life = core c c.life from hol]; exact List.prefix_refl _
      · intro hf
        have : s.lifeNull = true := hf
        rw [hln] at this; cases this
    · intro hk
      obtain ⟨y, hy⟩ := mem_of_ne_nil h.ne
      exact absurd ((h1 y).mpr (Or.inr (by simpa using hy))) (hk y hy)
  · rw [if_neg he]
    refine ⟨_, rfl, ?_, fun _ => Or.inl he, rfl, rfl, rfl, rfl⟩
    refine ⟨hb, h.st, h.kd, h.rl, h.ro, h.al, h.dlf, h.ne, h.dn, h.d0, h.qs, ?_, h.cmc, h.km, Or.inl ⟨hol, hln, hlu⟩, h.ln⟩
    intro y hy
    exact h.pts y (List.mem_of_mem_erase hy)

/-- the lifetime plugin forgets the subscription in progress, before the plugins are deactivated -/
theorem lifeForget_A {c : Cfg} {s : State} {x : Sub} (h : A c s (some x)) :
    ∃ s', lifeForget c x s = .ok s' ∧ A c s' none ∧ s'.log = .removed x :: s.log ∧ s'.kids = s.kids ∧
      s'.conf = s.conf ∧ s'.asked = s.asked ∧ s'.st = s.st ∧ s'.mapping = s.mapping ∧ s'.uns = s.uns ∧
      s'.queue = s.queue := by
  obtain ⟨hu, hq, hx, hnp⟩ := h.base.fx x rfl
  have hxm : x ∉ s.mapping := fun e => ((h.base.mp x).mp e).2.2 rfl
  have hb := h.base.forgetNp hx hnp hu hq hxm (Or.inr rfl)
  have hne : hInt c ≠ x := by
    intro e
    rw [← e] at hnp
    simp [hInt, np] at hnp
  have hpp : hInt c ∈ s.points.erase x := (List.mem_erase_of_ne hne).mpr h.pp
  simp only [lifeForget]
  rw [if_pos ⟨hx, h.act.1 _ (life_lt c) (life_ne_fgn c)⟩]
  rw [if_neg (fun e => by rw [show s.points.erase x = [] from e] at hpp; cases hpp)]
  refine ⟨_, rfl, ?_, rfl, rfl, rfl, rfl, rfl, rfl, rfl, rfl⟩
  refine ⟨hb, h.st, h.rs, h.rl, h.rb, h.act, h.ln, h.cor, h.ol, h.oc, h.km, h.sm, h.sr, h.ask, h.kn, h.kz, h.cv, h.ca,
    h.nu, hpp, ?_⟩
  intro p k hm
  rcases List.mem_cons.mp hm with q | q
  · have e : x = .plug p k := by simpa using q.symm
    rw [e] at hnp; simp [np] at hnp
  · exact h.rp p k q

/-- the front of the queue is taken by the lifetime plugin -/
theorem take_A {c : Cfg} {s : State} {x : Sub} {rest : List Sub} (h : A c s none) (hq : s.queue = x :: rest)
    (hnp : np x = true) : A c { s with queue := rest, mapping := s.mapping.erase x } (some x) := by
  have hb : Base c s.own s.points s.uns (x :: rest) s.mapping s.next s.log s.conf none := hq ▸ h.base
  have hxu : x ∈ s.uns := h.base.qu x (by rw [hq]; simp)
  have hx : x ∈ s.points := by
    rcases h.base.ql x (by rw [hq]; simp) with ⟨p, hp⟩ | ⟨hp, _⟩
    · have := h.base.ow p x hp
      rw [np_owner hnp] at this; cases this
    · exact hp
  refine ⟨hb.unmap hx hnp, h.st, h.rs, h.rl, h.rb, h.act, h.ln, h.cor, h.ol, h.oc, ?_, ?_, h.sr, ?_, h.kn, h.kz, h.cv, h.ca,
    h.nu, h.pp, h.rp⟩
  · intro y a hy ha; exact h.km y a (List.mem_of_mem_erase hy) ha
  · intro y hy ha; exact h.sm y (List.mem_of_mem_erase hy) ha
  · intro hk
    obtain ⟨y, h1, h2⟩ := h.ask hk
    refine ⟨y, (List.mem_erase_of_ne ?_).mpr h1, h2⟩
    rintro rfl
    exact h.sm y h1 h2 hxu

/-- there are children, and all have been asked to shut down -/
abbrev Waits (s : State) : Prop := s.kids ≠ [] ∧ ∀ a, a ∈ s.kids → a ∈ s.asked

/-- a record of a child is removed before the plugins are deactivated -/
theorem removeChild_A {c : Cfg} {env : Env} {s : State} {fl : Option Sub} {a : Nat} (h : A c s fl) (hl : SLg s)
    (ha : a ∈ s.kids) (hc : a ∈ s.conf) (hm : ∀ x, x ∈ s.mapping → mapOf x ≠ some a)
    (hw : (∀ lg, env lg = true) → s.st = .shuttingDown → ∀ b, b ∈ s.kids → b ∈ s.asked) :
    ∃ s', removeChild c (sc c env depth) a s = .ok s' ∧ SLg s' ∧ s'.conf = s.conf ∧ s'.active c.cm = true ∧
      ((A c s' fl ∧ Soft { s with kids := s.kids.erase a } s' ∧ ((∀ lg, env lg = true) → s'.st = .shuttingDown → Waits s')) ∨ (B c s' fl none ∧ K c s')) := by
  have h0 : a ≠ 0 := by rintro rfl; exact h.kz ha
  have hl1 : SLg { s with kids := s.kids.erase a, log := .gone a :: s.log } :=
    hl.gone hc _ (fun b hb => by
      by_cases e : b = a
      · exact Or.inl e
      · exact Or.inr ((List.mem_erase_of_ne e).mpr hb))
  have h1 : A c { s with kids := s.kids.erase a, log := .gone a :: s.log } fl := by
    refine ⟨h.base.event (by simp) (by simp), h.st, h.rs, h.rl, h.rb, h.act, h.ln, h.cor, h.ol, h.oc, ?_, h.sm, h.sr, h.ask,
      h.kn.erase a, fun e => h.kz (List.mem_of_mem_erase e), ?_, h.ca, h.nu, h.pp, by simpa using h.rp⟩
    · intro x b hx hb
      rcases h.km x b hx hb with q | q
      · exact Or.inl q
      · refine Or.inr ((List.mem_erase_of_ne ?_).mpr q)
        rintro rfl
        exact hm x hx hb
    · intro hf
      obtain ⟨q1, q2⟩ := h.cv hf
      rw [q1] at ha; cases ha
  simp only [removeChild]
  rw [if_pos (Or.inr ⟨h0, ha⟩), if_neg h0]
  by_cases hcond : s.st = .shuttingDown ∧ actors { s with kids := s.kids.erase a, log := .gone a :: s.log } ≤ 1
  · rw [if_pos hcond]
    obtain ⟨s', e1, e2, e3⟩ := cont_A (env := env) h1 hcond.1
    have : sc c env depth { s with kids := s.kids.erase a, log := .gone a :: s.log } = .ok s' := e1
    rw [this]
    simp only []
    have hact : s'.active c.cm = true := by
      rcases e3 with ⟨q, _⟩ | ⟨q, _, q2⟩
      · exact q.act.1 _ (cm_lt c) (cm_ne_fgn c)
      · cases e : s'.active c.cm
        · have := (q.dn c.cm (cm_lt c) (cm_ne_life c) (by simp)).2.2 e
          rw [q2] at this
          exact absurd this (core_cm c)
        · rfl
    rw [if_pos hact]
    refine ⟨s', rfl, hl1.ext e2, e2.2.2, hact, ?_⟩
    rcases e3 with ⟨q, q1, q3, q2⟩ | ⟨q, q1, _⟩
    · exact Or.inl ⟨q, ⟨q3.uns, q3.queue, q3.st, q3.kids, q3.conf, q3.old, q3.new⟩, fun he _ => q2 he⟩
    · exact Or.inr ⟨q, q1⟩
  · rw [if_neg hcond]
    refine ⟨_, rfl, hl1, rfl, h1.act.1 _ (cm_lt c) (cm_ne_fgn c), Or.inl ⟨h1, ⟨rfl, rfl, rfl, rfl, rfl, fun _ h => h, fun _ h => Or.inl h⟩, ?_⟩⟩
    intro he hst
    refine ⟨fun hk => hcond ⟨hst, ?_⟩, fun b hb => hw he hst b (List.mem_of_mem_erase hb)⟩
    have hk : s.kids.erase a = [] := hk
    simp [actors, hk]
    split <;> omega

/-- the subscriptions of children that have confirmed -/
structure N (s : State) : Prop where
  ex : ∀ a, a ∈ s.kids → a ∈ s.conf → ∃ x, x ∈ s.mapping ∧ mapOf x = some a
  un : ∀ x a, x ∈ s.mapping → mapOf x = some a → a ≠ 0 → a ∈ s.conf → x ∈ s.uns

theorem N.soft {s s' : State} (h : N s) (hs : Soft s s') : N s' := by
  refine ⟨?_, ?_⟩
  · intro a ha hc
    rw [hs.kids] at ha
    rw [hs.conf] at hc
    obtain ⟨x, h1, h2⟩ := h.ex a ha hc
    exact ⟨x, hs.old x h1, h2⟩
  · intro x a hx ha h0 hc
    rw [hs.conf] at hc
    rw [hs.uns]
    rcases hs.new x hx with q | q
    · exact h.un x a q ha h0 hc
    · rw [ha] at q
      exact absurd (Option.some.inj q) h0

theorem N.congr {s s' : State} (h : N s) (h1 : s'.kids = s.kids) (h2 : s'.conf = s.conf) (h3 : s'.mapping = s.mapping)
    (h4 : s'.uns = s.uns) : N s' := by
  refine ⟨?_, ?_⟩
  · rw [h1, h2, h3]; exact h.ex
  · rw [h2, h3, h4]; exact h.un

/-- a round makes no new subscriptions of plugins -/
theorem Ext.plug {c : Cfg} {s s' : State} {fl fl' : Option Sub} (h : SBase c s fl) (h' : SBase c s' fl') (he : Ext s s') {p k : Nat}
    (hx : Sub.plug p k ∈ s'.own p) : Sub.plug p k ∈ s.own p := by
  obtain ⟨⟨d, e, q⟩, _, _⟩ := he
  have hc : ∀ v : Ev, v.quiet = false → s'.log.count v = s.log.count v := by
    intro v hv
    rw [e, List.count_append]
    have : d.count v = 0 := List.count_eq_zero.mpr (fun z => by rw [q v z] at hv; cases hv)
    omega
  have h1 := hc (.made (.plug p k)) rfl
  have h2 := hc (.removed (.plug p k)) rfl
  have hlive : Live s'.own s'.points (.plug p k) := Or.inl ⟨p, hx⟩
  have : Live s.own s.points (.plug p k) := by
    rcases h'.ct (.plug p k) with ⟨_, a, b⟩ | ⟨a, _⟩ | ⟨a, _⟩
    · rcases h.ct (.plug p k) with ⟨z, _⟩ | ⟨_, z1, z2⟩ | ⟨_, z1, z2⟩
      · exact z
      · omega
      · omega
    · exact absurd hlive a
    · exact absurd hlive a
  rcases this with ⟨r, hr⟩ | ⟨_, hr⟩
  · have := h.ow r _ hr
    simp only [owner, Option.some.injEq] at this
    exact this.symm ▸ hr
  · simp [np] at hr

/-- what a step with the front of the queue does before the plugins are deactivated -/
structure Fwd (s s' : State) : Prop where
  n : N s'
  queue : s'.queue = s.queue.tail
  st : s'.st = s.st
  conf : s'.conf = s.conf
  kids : s'.kids.Sublist s.kids

/-- the front of the queue is processed before the plugins are deactivated -/
theorem confirm_A {c : Cfg} {env : Env} {s : State} (h : A c s none) (hl : SLg s) (hn : N s)
    (hst : (∀ lg, env lg = true) → s.st = .shuttingDown → Waits s) :
    ∃ s', confirm c env s = .ok s' ∧ SLg s' ∧
      ((A c s' none ∧ Fwd s s' ∧ ((∀ lg, env lg = true) → s'.st = .shuttingDown → Waits s')) ∨ (B c s' none none ∧ K c s')) := by
  simp only [confirm]
  cases hq : s.queue with
  | nil => exact ⟨s, rfl, hl, Or.inl ⟨h, ⟨hn, by rw [hq]; rfl, rfl, rfl, List.Sublist.refl _⟩, hst⟩⟩
  | cons x rest =>
    have hin : hInt c ∈ s.own c.life := by rw [h.ol, core_life]; simp [hInt]
    simp only []
    rw [if_pos hin]
    have hxq : x ∈ s.queue := by rw [hq]; simp
    have hxu := h.base.qu x hxq
    have hlive := h.base.ql x hxq
    have hb : Base c s.own s.points s.uns (x :: rest) s.mapping s.next s.log s.conf none := hq ▸ h.base
    cases x with
    | plug p k =>
      have hpf := h.nu p k hxu
      subst hpf
      have hx : Sub.plug c.fgn k ∈ s.own c.fgn := by
        rcases hlive with ⟨p, hp⟩ | ⟨_, hp⟩
        · have := h.base.ow p _ hp
          simp only [owner, Option.some.injEq] at this
          exact this ▸ hp
        · simp [np] at hp
      simp only []
      rw [if_pos hx]
      have hl1 : Lg (.removed (.plug c.fgn k) :: s.log) s.kids s.conf := hl.removed (by simp [mapOf])
      -- the subscription is forgotten
      have hA : ∀ ac : Nat → Bool, (∀ p, p ≠ c.fgn → ac p = s.active p) →
          (ac c.fgn = false → (s.own c.fgn).erase (.plug c.fgn k) = []) →
          A c { s with queue := rest, own := upd s.own c.fgn ((s.own c.fgn).erase (.plug c.fgn k)),
                       log := .removed (.plug c.fgn k) :: s.log, active := ac } none := by
        intro ac ha hae
        refine ⟨hb.forget hx, h.st, h.rs, h.rl, h.rb, ⟨?_, ?_, h.act.2.2⟩, h.ln, ?_, ?_, ?_, h.km, h.sm, h.sr, h.ask, h.kn, h.kz, h.cv,
          h.ca, h.nu, h.pp, ?_⟩
        · intro p hp hpf; exact (ha p hpf).trans (h.act.1 p hp hpf)
        · intro z; exact (upd_same s.own c.fgn _).trans (hae z)
        · intro p y hp hpf hy
          obtain ⟨z1, z2⟩ := h.cor p y hp hpf hy
          refine ⟨?_, z2⟩
          show y ∈ upd s.own c.fgn _ p
          rw [upd_ne _ _ hpf]; exact z1
        · exact (upd_ne s.own _ (life_ne_fgn c)).trans h.ol
        · exact (upd_ne s.own _ (cm_ne_fgn c)).trans h.oc
        · intro p j hm
          rcases List.mem_cons.mp hm with q | q
          · simp only [Ev.removed.injEq, Sub.plug.injEq] at q; exact q.1
          · exact h.rp p j q
      simp only [forget]
      by_cases hlast : (s.own c.fgn).erase (.plug c.fgn k) = []
      · rw [if_pos hlast]
        rw [upd_self s.deact c.fgn false h.act.2.2]
        by_cases hsd : s.st = .shuttingDown
        · rw [if_pos hsd]
          have h2 := hA s.active (fun _ _ => rfl) (fun _ => hlast)
          obtain ⟨s3, e1, e2, e3⟩ := cont_A (env := env) h2 hsd
          have : sc c env depth { s with queue := rest, own := upd s.own c.fgn ((s.own c.fgn).erase (.plug c.fgn k)), log := .removed (.plug c.fgn k) :: s.log } = .ok s3 := e1
          rw [this]
          simp only []
          have hown : ∀ {f}, SBase c s3 f → s3.own c.fgn = [] := by
            intro f hb3
            rw [List.eq_nil_iff_forall_not_mem]
            intro y hy
            have ho := hb3.ow _ y hy
            cases y with
            | plug p j =>
              simp only [owner, Option.some.injEq] at ho
              subst ho
              have := e2.plug h2.base hb3 hy
              have hz : Sub.plug c.fgn j ∈ upd s.own c.fgn ((s.own c.fgn).erase (.plug c.fgn k)) c.fgn := this
              rw [upd_same, hlast] at hz
              cases hz
            | user j =>
              simp only [owner, Option.some.injEq] at ho
              exact absurd ho (starter_ne_fgn c)
            | anon j => simp [owner] at ho
            | map a t j => simp [owner] at ho
          have hl3 : SLg s3 := Lg.ext (s := { s with queue := rest, own := upd s.own c.fgn ((s.own c.fgn).erase (.plug c.fgn k)), log := .removed (.plug c.fgn k) :: s.log }) hl1 e2
          refine ⟨_, rfl, hl3, ?_⟩
          rcases e3 with ⟨q, q1, q2, q3⟩ | ⟨q, q1, _⟩
          · refine Or.inl ⟨?_, ⟨?_, ?_, ?_, ?_, ?_⟩, fun he _ => q3 he⟩
            · refine ⟨q.base, q.st, q.rs, q.rl, q.rb, ⟨?_, fun _ => hown q.base, q.act.2.2⟩, q.ln, q.cor, q.ol, q.oc, q.km, q.sm, q.sr,
                q.ask, q.kn, q.kz, q.cv, q.ca, q.nu, q.pp, q.rp⟩
              intro p hp hpf
              exact (upd_ne s3.active false hpf).trans (q.act.1 p hp hpf)
            · exact ((hn.congr (s' := { s with queue := rest, own := upd s.own c.fgn ((s.own c.fgn).erase (.plug c.fgn k)), log := .removed (.plug c.fgn k) :: s.log }) rfl rfl rfl rfl).soft q2).congr rfl rfl rfl rfl
            · rw [hq]; exact q2.queue
            · exact q2.st
            · exact q2.conf
            · show List.Sublist s3.kids s.kids
              rw [q2.kids]; exact List.Sublist.refl _
          · have hb0 := hown q.base
            have hf : s3.active c.fgn = false := by
              cases hz : s3.active c.fgn
              · rfl
              · exact absurd hb0 ((q.dn c.fgn (fgn_lt c) (Ne.symm (life_ne_fgn c)) (by simp)).2.1 hz)
            rw [upd_self _ _ _ hf]
            exact Or.inr ⟨q, q1⟩
        · rw [if_neg hsd]
          refine ⟨_, rfl, hl1, Or.inl ⟨hA _ (fun p hp => upd_ne s.active false hp) (fun _ => hlast),
            ⟨⟨hn.ex, hn.un⟩, by rw [hq]; rfl, rfl, rfl, List.Sublist.refl _⟩, hst⟩⟩
      · rw [if_neg hlast]
        refine ⟨_, rfl, hl1, Or.inl ⟨hA s.active (fun _ _ => rfl) ?_,
          ⟨⟨hn.ex, hn.un⟩, by rw [hq]; rfl, rfl, rfl, List.Sublist.refl _⟩, hst⟩⟩
        intro z
        rw [h.act.2.1 z] at hx
        cases hx
    | user k =>
      have hx : Sub.user k ∈ s.own c.starter := by
        rcases hlive with ⟨p, hp⟩ | ⟨_, hp⟩
        · have := h.base.ow p _ hp
          simp only [owner, Option.some.injEq] at this
          rw [this]; exact hp
        · simp [np] at hp
      simp only []
      rw [if_pos hx]
      simp only [forget]
      have hcs : Sub.plug c.starter 0 ∈ (s.own c.starter).erase (.user k) := by
        refine (List.mem_erase_of_ne (by simp)).mpr (h.cor c.starter _ (starter_lt c) (starter_ne_fgn c) ?_).1
        exact (mem_core c _ _).mpr ⟨0, c.hstart, rfl⟩
      rw [if_neg (fun e => by rw [e] at hcs; cases hcs)]
      refine ⟨_, rfl, hl.removed (by simp [mapOf]), Or.inl ⟨?_, ⟨⟨hn.ex, hn.un⟩, by rw [hq]; rfl, rfl, rfl, List.Sublist.refl _⟩, hst⟩⟩
      refine ⟨hb.forget hx, h.st, h.rs, h.rl, h.rb, ?_, h.ln, ?_, ?_, ?_, h.km, h.sm, h.sr, h.ask, h.kn, h.kz, h.cv, h.ca, h.nu,
        h.pp, by simpa using h.rp⟩
      · exact ⟨h.act.1, fun z => (upd_ne s.own _ (Ne.symm (starter_ne_fgn c))).trans (h.act.2.1 z), h.act.2.2⟩
      · intro p y hp hpf hy
        obtain ⟨z1, z2⟩ := h.cor p y hp hpf hy
        refine ⟨?_, z2⟩
        by_cases e : p = c.starter
        · subst e
          show y ∈ upd s.own c.starter _ c.starter
          rw [upd_same]
          refine (List.mem_erase_of_ne ?_).mpr z1
          obtain ⟨j, _, rfl⟩ := (mem_core c _ _).mp hy
          simp
        · show y ∈ upd s.own c.starter _ p
          rw [upd_ne _ _ e]; exact z1
      · exact (upd_ne s.own _ (Ne.symm (starter_ne_life c))).trans h.ol
      · exact (upd_ne s.own _ (Ne.symm (starter_ne_cm c))).trans h.oc
    | anon k =>
      have h1 := take_A h hq (by rfl : np (.anon k) = true)
      have hne : Sub.anon k ∉ s.mapping := by
        intro e
        have := (h.base.mp _).mp e
        simp [mapOf] at this
      rw [List.erase_of_not_mem hne] at h1
      obtain ⟨s', e1, e2, e3, e4, e5, e6, e7, e8, e9, e10⟩ := lifeForget_A h1
      refine ⟨s', e1, ?_, Or.inl ⟨e2, ⟨hn.congr e4 e5 e8 e9, by rw [hq]; exact e10, e7, e5, by rw [e4]; exact List.Sublist.refl _⟩, ?_⟩⟩
      · show Lg s'.log s'.kids s'.conf
        rw [e3, e4, e5]
        exact hl.removed (by simp [mapOf])
      · rw [e7, Waits, e4, e6]; exact hst
    | map a ty k =>
      have h1 := take_A h hq (by rfl : np (.map a ty k) = true)
      have hx : Sub.map a ty k ∈ s.mapping := by
        refine (h.base.mp _).mpr ⟨?_, rfl, by simp⟩
        rcases hlive with ⟨p, hp⟩ | ⟨hp, _⟩
        · have := h.base.ow p _ hp
          simp [owner] at this
        · exact hp
      have ha0 : a ≠ 0 := by
        rintro rfl
        exact h.sm _ hx rfl hxu
      have hak : a ∈ s.kids := (h.km _ a hx rfl).resolve_left ha0
      have hac : a ∈ s.conf := (h.base.um _ a hxu rfl).resolve_left ha0
      have hl1 : SLg { s with queue := rest, mapping := s.mapping.erase (.map a ty k) } := hl
      have hany : s.mapping.any (fun y => mapOf y == some a) = true :=
        List.any_eq_true.mpr ⟨_, hx, by simp [mapOf]⟩
      -- the child manager
      have hcm : ∃ s2, cmUnsub c env a (.map a ty k) { s with queue := rest } = .ok s2 ∧ SLg s2 ∧
          s2.conf = s.conf ∧
          ((A c s2 (some (.map a ty k)) ∧ Fwd s s2 ∧ ((∀ lg, env lg = true) → s2.st = .shuttingDown → Waits s2)) ∨
            (B c s2 (some (.map a ty k)) none)) := by
        have hun1 : ∀ x b, x ∈ s.mapping.erase (.map a ty k) → mapOf x = some b → b ≠ 0 → b ∈ s.conf → x ∈ s.uns :=
          fun x b hx hb h0 hc => hn.un x b (List.mem_of_mem_erase hx) hb h0 hc
        simp only [cmUnsub]
        rw [if_pos ⟨h.act.1 _ (cm_lt c) (cm_ne_fgn c), hany⟩]
        by_cases hleft : (s.mapping.erase (.map a ty k)).any (fun y => mapOf y == some a) = true
        · rw [if_pos hleft]
          simp only []
          rw [if_pos (h.act.1 _ (cm_lt c) (cm_ne_fgn c))]
          have hnm : s.mapping.erase (.map a ty k) ≠ [] := by
            intro e; rw [e] at hleft; simp at hleft
          rw [if_neg]
          · refine ⟨_, rfl, hl1, rfl, Or.inl ⟨h1, ⟨⟨?_, hun1⟩, by rw [hq]; rfl, rfl, rfl, List.Sublist.refl _⟩, hst⟩⟩
            intro b hb hbc
            by_cases e : b = a
            · subst e
              obtain ⟨y, hy, hyb⟩ := List.any_eq_true.mp hleft
              exact ⟨y, hy, by simpa using hyb⟩
            · obtain ⟨y, hy, hyb⟩ := hn.ex b hb hbc
              refine ⟨y, (List.mem_erase_of_ne ?_).mpr hy, hyb⟩
              rintro rfl
              simp only [mapOf, Option.some.injEq] at hyb
              exact e hyb.symm
          · rintro (q | q)
            · simp [actors, h.sr] at q
            · exact hnm q
        · rw [if_neg hleft]
          have hnone : ∀ x, x ∈ s.mapping.erase (.map a ty k) → mapOf x ≠ some a := by
            intro y hy hya
            exact hleft (List.any_eq_true.mpr ⟨y, hy, by simp [hya]⟩)
          obtain ⟨s2, e1, e2, e3, e4, e5⟩ := removeChild_A (env := env) h1 hl1 hak hac hnone (fun he e => (hst he e).2)
          rw [e1]
          simp only []
          rw [if_pos e4]
          rcases e5 with ⟨q, q1, q2⟩ | ⟨q, _⟩
          · have hask : s2.asked ≠ [] := by
              intro e
              have := q.ca a (by rw [e3]; exact hac)
              rw [e] at this; cases this
            obtain ⟨y, hy, _⟩ := q.ask hask
            rw [if_neg]
            · refine ⟨s2, rfl, e2, e3, Or.inl ⟨q, ⟨?_, by rw [q1.queue, hq]; rfl, q1.st, e3, by rw [q1.kids]; exact List.erase_sublist⟩, q2⟩⟩
              have hn1 : N { s with queue := rest, mapping := s.mapping.erase (.map a ty k), kids := s.kids.erase a } := by
                refine ⟨?_, hun1⟩
                intro b hb hbc
                have hba : b ≠ a := by
                  rintro rfl
                  exact (List.Nodup.mem_erase_iff h.kn).mp hb |>.1 rfl
                obtain ⟨y, hy, hyb⟩ := hn.ex b (List.mem_of_mem_erase hb) hbc
                refine ⟨y, (List.mem_erase_of_ne ?_).mpr hy, hyb⟩
                rintro rfl
                simp only [mapOf, Option.some.injEq] at hyb
                exact hba hyb.symm
              exact hn1.soft q1
            · rintro (z | z)
              · simp [actors, q.sr] at z
              · rw [z] at hy; cases hy
          · refine ⟨s2, ?_, e2, e3, Or.inr q⟩
            by_cases hm : s2.mapping = []
            · rw [if_pos (Or.inr hm)]
              exact base_nop q (cm_lt c) (cm_ne_life c) (by simp) (fun _ => hm)
            · rw [if_neg]
              rintro (z | z)
              · rcases q.cmc with w | w
                · simp [actors, w.2.1] at z
                · exact hm w.1
              · exact hm z
      obtain ⟨s2, e1, e2, e3, e4⟩ := hcm
      simp only []
      rw [e1]
      simp only []
      rcases e4 with ⟨q, q0, q1⟩ | q
      · obtain ⟨s', f1, f2, f3, f4, f5, f6, f7, f8, f9, f10⟩ := lifeForget_A q
        refine ⟨s', f1, ?_, Or.inl ⟨f2, ⟨q0.n.congr f4 f5 f8 f9, by rw [f10, q0.queue, hq], f7.trans q0.st, f5.trans q0.conf,
          by rw [f4]; exact q0.kids⟩, ?_⟩⟩
        · show Lg s'.log s'.kids s'.conf
          rw [f3, f4, f5]
          refine e2.removed ?_
          intro b hb
          simp only [mapOf, Option.some.injEq] at hb
          rw [← hb, e3]; exact Or.inr hac
        · rw [f7, Waits, f4, f6]; exact q1
      · obtain ⟨s', f1, f2, f2', f3, f4, f5, f6⟩ := lifeForget_B q
        refine ⟨s', f1, ?_, Or.inr ⟨f2, f2'⟩⟩
        show Lg s'.log s'.kids s'.conf
        rw [f3, f4, f5]
        refine e2.removed ?_
        intro b hb
        simp only [mapOf, Option.some.injEq] at hb
        rw [← hb, e3]; exact Or.inr hac

end Verif.SupTeardown
