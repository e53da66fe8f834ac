import Verif.SupTeardown.Drain
/-! # Every step keeps the invariant (C72), the operations -/

namespace Verif.SupTeardown
open Verif

/-- the invariant of all executions -/
def Good (c : Cfg) (env : Env) (s : State) : Prop :=
  SLg s ∧ ((A c s none ∧ N s ∧ ((∀ lg, env lg = true) → s.st = .shuttingDown → Waits s)) ∨
    (B c s none none ∧ K c s) ∨ Done c s)

theorem plug_nodup (p n : Nat) : ((List.range n).map (fun k => Sub.plug p k)).Nodup := by
  rw [List.Nodup, List.pairwise_map]
  exact (List.nodup_range (n := n)).imp fun h => by simpa using h

theorem core_all_nodup (c : Cfg) (n : Nat) : ((List.range n).flatMap (core c)).Nodup := by
  induction n with
  | zero => simp
  | succ n ih =>
    rw [List.range_succ, List.flatMap_append, List.nodup_append]
    refine ⟨ih, by simpa [core] using plug_nodup n (c.cnt n), ?_⟩
    intro a ha b hb e
    subst e
    obtain ⟨p, hp, hx⟩ := List.mem_flatMap.mp ha
    have hb : a ∈ core c n := by simpa using hb
    have h1 := owner_of_core hx
    rw [owner_of_core hb] at h1
    have : n = p := Option.some.inj h1
    have := List.mem_range.mp hp
    omega

theorem init_good (c : Cfg) (env : Env) : Good c env (State.init c) := by
  have hmem : ∀ x, x ∈ (List.range c.n).flatMap (core c) ↔ ∃ p, p < c.n ∧ x ∈ core c p := by
    intro x; simp [List.mem_flatMap]
  have hown : ∀ p x, x ∈ (State.init c).own p ↔ p < c.n ∧ x ∈ core c p := by
    intro p x
    simp only [State.init]
    split
    · next h => simp [h]
    · next h => simp [h]
  have hnp : ∀ x, x ∈ (State.init c).points → np x = false := by
    intro x hx
    obtain ⟨p, _, h⟩ := (hmem x).mp hx
    exact core_np c p x h
  have hbl : ∀ p x, x ∈ core c p → below 0 x := by
    intro p x h
    obtain ⟨k, _, rfl⟩ := (mem_core c p x).mp h
    trivial
  refine ⟨⟨?_, ?_, ?_, ?_⟩, Or.inl ⟨?_, ⟨?_, ?_⟩, ?_⟩⟩
  · intro a ha; simp [State.init] at ha
  · intro a _ ha; simp [State.init] at ha
  · intro a ty k _ ha; simp [State.init] at ha
  · intro a ha; simp [State.init] at ha
  · refine ⟨?_, Or.inl rfl, ?_, ?_, ?_, ?_, rfl, ?_, ?_, ?_, ?_, ?_, rfl, ?_, ?_, ?_, ?_, ?_, ?_, ?_, ?_⟩
    · refine ⟨by simp [State.init], ?_, core_all_nodup c c.n, by simp [State.init], by simp [State.init], by simp [State.init],
        by simp, ?_, ?_, ?_, by simp [State.init], ?_, ?_, by simp [State.init], ?_, by simp [State.init], by simp [State.init], ?_⟩
      · intro p
        simp only [State.init]
        split
        · exact plug_nodup p _
        · simp
      · intro p x hx; exact owner_of_core ((hown p x).mp hx).2
      · intro p hp
        simp only [State.init]
        rw [if_neg (by omega)]
      · intro x
        constructor
        · intro h; cases h
        · rintro ⟨h1, h2, _⟩
          have := hnp x h1
          rw [np_of_map h2] at this; cases this
      · intro x hx
        obtain ⟨p, _, h⟩ := (hmem x).mp hx
        exact hbl p x h
      · intro p x hx; exact hbl p x ((hown p x).mp hx).2
      · intro x hx
        have : x ∈ (List.range c.n).flatMap (core c) := by
          obtain ⟨y, hy, e⟩ := List.mem_map.mp hx
          have : y = x := by simpa using e
          rw [← this]; exact hy
        obtain ⟨p, h1, h2⟩ := (hmem x).mp this
        exact Or.inr (Or.inl ⟨p, (hown p x).mpr ⟨h1, h2⟩⟩)
      · intro x
        have hlog : (State.init c).log = ((List.range c.n).flatMap (core c)).map .made := rfl
        have hr : (State.init c).log.count (.removed x) = 0 := by
          rw [List.count_eq_zero, hlog]; simp
        have hlv : Live (State.init c).own (State.init c).points x ↔ x ∈ (List.range c.n).flatMap (core c) := by
          constructor
          · rintro (⟨p, hp⟩ | ⟨hp, _⟩)
            · exact (hmem x).mpr ⟨p, (hown p x).mp hp⟩
            · exact hp
          · intro hx
            obtain ⟨p, h1, h2⟩ := (hmem x).mp hx
            exact Or.inl ⟨p, (hown p x).mpr ⟨h1, h2⟩⟩
        have hnd : (State.init c).log.Nodup := by
          rw [hlog, List.Nodup, List.pairwise_map]
          exact (core_all_nodup c c.n).imp fun h => by simpa using h
        by_cases hx : x ∈ (List.range c.n).flatMap (core c)
        · refine Or.inl ⟨hlv.mpr hx, ?_, hr⟩
          have : Ev.made x ∈ (State.init c).log := by rw [hlog]; exact List.mem_map.mpr ⟨x, hx, rfl⟩
          have h1 := List.count_pos_iff.mpr this
          have h2 := List.nodup_iff_count.mp hnd (.made x)
          omega
        · refine Or.inr (Or.inr ⟨fun z => hx (hlv.mp z), ?_, hr⟩)
          rw [List.count_eq_zero, hlog]
          simpa using hx
    · simp only [State.init, Cfg.shut]
      rw [c.hvshut]
      have := shut_lt c
      simpa [Cfg.shut] using this
    · simp only [State.init]
      rw [c.hvlife]
      simpa using life_lt c
    · intro p hp
      simp only [State.init]
      rw [c.hbefore p hp]
      simp
    · refine ⟨fun p hp _ => by simpa [State.init] using hp, fun z => ?_, rfl⟩
      simp [State.init, fgn_lt c] at z
    · intro p x hp _ hx; exact ⟨(hown p x).mpr ⟨hp, hx⟩, by simp [State.init]⟩
    · simp only [State.init]; rw [if_pos (life_lt c)]
    · simp only [State.init]; rw [if_pos (cm_lt c)]
    · intro x a hx; cases hx
    · intro x hx; cases hx
    · intro h; exact absurd rfl h
    · simp [State.init]
    · simp [State.init]
    · intro h
      simp only [State.init] at h
      rw [c.hvcm] at h
      have := cm_lt c
      simp at h; omega
    · intro a ha; cases ha
    · intro p k h; cases h
    · refine (hmem _).mpr ⟨c.life, life_lt c, ?_⟩
      rw [core_life]; simp [hInt]
    · intro p k h; simp [State.init] at h
  · intro a ha; cases ha
  · intro x a hx; cases hx
  · intro _ h; cases h

/-- before the plugins are deactivated, the response of a child arrives: its record -/
theorem kidGone_A {c : Cfg} {env : Env} {s : State} {a : Nat} (h : A c s none) (hl : SLg s) (hn : N s) (hk : a ∈ s.kids)
    (ha : a ∈ s.asked) (hc : a ∉ s.conf)
    (hw : (∀ lg, env lg = true) → s.st = .shuttingDown → ∀ b, b ∈ s.kids → b ∈ s.asked) :
    ∃ s', kidGone c env a s = .ok s' ∧ SLg s' ∧
      ((A c s' none ∧ N s' ∧ s'.st = s.st ∧ s'.conf = a :: s.conf ∧ s'.kids.Sublist s.kids ∧
          ((∀ lg, env lg = true) → s'.st = .shuttingDown → Waits s')) ∨ (B c s' none none ∧ K c s')) := by
  have h0 : a ≠ 0 := by rintro rfl; exact h.kz hk
  have hl1 : SLg { s with conf := a :: s.conf, log := .confirmed a :: s.log } := by
    refine ⟨?_, ?_, ?_, ?_⟩
    · intro b hb
      rcases hl.cr b (by simpa using hb) with q | q
      · exact Or.inl (by simp [q])
      · exact Or.inr q
    · intro b hb hg
      exact List.mem_cons_of_mem _ (hl.gn b hb (by simpa using hg))
    · intro b ty k hb hg
      exact List.mem_cons_of_mem _ (hl.rm b ty k hb (by simpa using hg))
    · intro b hb
      rcases List.mem_cons.mp hb with q | q
      · rw [q]; simp
      · exact List.mem_cons_of_mem _ (hl.cf b q)
  have h1 : A c { s with conf := a :: s.conf, log := .confirmed a :: s.log } none := by
    have hb := h.base.event (e := .confirmed a) (by simp) (by simp)
    refine ⟨⟨hb.qn, hb.on, hb.pn, hb.qu, hb.un, hb.ql, hb.fx, hb.ow, hb.ob, hb.mp, hb.mn, hb.fp, hb.fo, hb.fu, hb.lg, hb.nr, ?_, hb.ct⟩,
      h.st, h.rs, h.rl, h.rb, h.act, h.ln, h.cor, h.ol, h.oc, h.km, h.sm, h.sr, h.ask, h.kn, h.kz, h.cv, ?_, h.nu, h.pp,
      by simpa using h.rp⟩
    · intro x b hx hb'
      rcases hb.um x b hx hb' with q | q
      · exact Or.inl q
      · exact Or.inr (by simp [q])
    · intro b hb
      rcases List.mem_cons.mp hb with q | q
      · rw [q]; exact ha
      · exact h.ca b q
  simp only [kidGone]
  by_cases hany : s.mapping.any (fun y => mapOf y == some a) = true
  · rw [if_pos hany]
    obtain ⟨l', U, e, g1, g2, g3, g4⟩ := markAll_spec (s.mapping.filter (fun y => mapOf y == some a))
      { s with conf := a :: s.conf, log := .confirmed a :: s.log }
    rw [e]
    have hf : ∀ x, x ∈ s.mapping.filter (fun y => mapOf y == some a) ↔ x ∈ s.mapping ∧ mapOf x = some a := by
      intro x; simp [List.mem_filter]
    refine ⟨_, rfl, hl1, Or.inl ⟨?_, ⟨?_, ?_⟩, rfl, rfl, List.Sublist.refl _, ?_⟩⟩
    · refine ⟨?_, h1.st, h1.rs, h1.rl, h1.rb, h1.act, h1.ln, ?_, h1.ol, h1.oc, h1.km, ?_, h1.sr, h1.ask, h1.kn, h1.kz, h1.cv, h1.ca, ?_,
        h1.pp, h1.rp⟩
      · refine h1.base.mark ?_ ?_ g1 g2 g3
        · intro x hx
          obtain ⟨q1, q2⟩ := (hf x).mp hx
          exact Or.inr ⟨((h.base.mp x).mp q1).1, np_of_map (by rw [q2]; rfl)⟩
        · intro x b hx hb
          obtain ⟨q1, q2⟩ := (hf x).mp hx
          rw [q2] at hb
          exact Or.inr (Or.inr (by simp [Option.some.inj hb]))
      · intro p x hp hpf hx
        refine ⟨(h.cor p x hp hpf hx).1, ?_⟩
        intro hu
        rcases (g1 x).mp hu with q | q
        · exact (h.cor p x hp hpf hx).2 q
        · have := np_of_map (x := x) (by rw [((hf x).mp q).2]; rfl)
          rw [core_np c p x hx] at this; cases this
      · intro x hx hm hu
        rcases (g1 x).mp hu with q | q
        · exact h.sm x hx hm q
        · rw [((hf x).mp q).2] at hm
          exact h0 (Option.some.inj hm)
      · intro p k hu
        rcases (g1 _).mp hu with q | q
        · exact h.nu p k q
        · have := ((hf _).mp q).2
          simp [mapOf] at this
    · intro b hb hbc
      by_cases eb : b = a
      · subst eb
        obtain ⟨y, hy, hyb⟩ := List.any_eq_true.mp hany
        exact ⟨y, hy, by simpa using hyb⟩
      · rcases List.mem_cons.mp hbc with q | q
        · exact absurd q eb
        · exact hn.ex b hb q
    · intro x b hx hb hb0 hbc
      rw [g1]
      rcases List.mem_cons.mp hbc with q | q
      · exact Or.inr ((hf x).mpr ⟨hx, by rw [hb, q]⟩)
      · exact Or.inl (hn.un x b hx hb hb0 q)
    · intro he e
      exact ⟨(fun hk' => by rw [show s.kids = [] from hk'] at hk; cases hk), hw he e⟩
  · rw [if_neg hany]
    have hnone : ∀ x, x ∈ s.mapping → mapOf x ≠ some a := by
      intro y hy hya
      exact hany (List.any_eq_true.mpr ⟨y, hy, by simp [hya]⟩)
    obtain ⟨s', e1, e2, e3, e4, e5⟩ := removeChild_A (env := env) h1 hl1 hk (by simp) hnone hw
    refine ⟨s', e1, e2, ?_⟩
    rcases e5 with ⟨q1, q2, q3⟩ | q
    · refine Or.inl ⟨q1, ?_, q2.st, e3, by rw [q2.kids]; exact List.erase_sublist, q3⟩
      refine N.soft (s := { s with conf := a :: s.conf, log := .confirmed a :: s.log, kids := s.kids.erase a }) ⟨?_, ?_⟩ q2
      · intro b hb hbc
        have hba := ((List.Nodup.mem_erase_iff h.kn).mp hb).1
        rcases List.mem_cons.mp hbc with q | q
        · exact absurd q hba
        · exact hn.ex b (List.mem_of_mem_erase hb) q
      · intro x b hx hb hb0 hbc
        rcases List.mem_cons.mp hbc with q | q
        · rw [q] at hb
          exact absurd hb (hnone x hx)
        · exact hn.un x b hx hb hb0 q
    · exact Or.inr q

/-- the child manager works as long as it removes records -/
theorem removeChild_active {c : Cfg} {cont : State → Except Err State} {a : Nat} {s s' : State} (e : removeChild c cont a s = .ok s')
    (h : s.active c.cm = true) : s'.active c.cm = true := by
  have key : ∀ s1 : State, s1.active c.cm = true → (if s1.st = .shuttingDown ∧ actors s1 ≤ 1 then
      match cont s1 with
      | .error e => Except.error e
      | .ok s2 => if s2.active c.cm then Except.ok s2 else Except.error Err.fault
    else Except.ok s1) = .ok s' → s'.active c.cm = true := by
    intro s1 h1 e1
    split at e1
    · split at e1
      · cases e1
      · split at e1
        · next h2 => rw [← Except.ok.inj e1]; exact h2
        · cases e1
    · rw [← Except.ok.inj e1]; exact h1
  unfold removeChild at e
  split at e
  · refine key _ ?_ e
    split <;> exact h
  · cases e

theorem markAll_active (l : List Sub) (s : State) : (markAll l s).active = s.active := by
  obtain ⟨l', U, e, _⟩ := markAll_spec l s
  rw [e]

theorem kidGone_active {c : Cfg} {env : Env} {a : Nat} {s s' : State} (e : kidGone c env a s = .ok s') (h : s.active c.cm = true) :
    s'.active c.cm = true := by
  simp only [kidGone] at e
  split at e
  · rw [← Except.ok.inj e, markAll_active]; exact h
  · exact removeChild_active e h

/-- before the plugins are deactivated, the response of a child arrives -/
theorem kidConfirm_A {c : Cfg} {env : Env} {s : State} {a : Nat} (h : A c s none) (hl : SLg s) (hn : N s) (hk : a ∈ s.kids)
    (ha : a ∈ s.asked) (hc : a ∉ s.conf)
    (hw : (∀ lg, env lg = true) → s.st = .shuttingDown → ∀ b, b ∈ s.kids → b ∈ s.asked) :
    ∃ s', kidConfirm c env a s = .ok s' ∧ SLg s' ∧
      ((A c s' none ∧ N s' ∧ s'.st = s.st ∧ s'.conf = a :: s.conf ∧ s'.kids.Sublist s.kids ∧
          ((∀ lg, env lg = true) → s'.st = .shuttingDown → Waits s')) ∨ (B c s' none none ∧ K c s')) := by
  obtain ⟨s1, e1, l1, g⟩ := kidGone_A (env := env) h hl hn hk ha hc hw
  have hact := kidGone_active e1 (h.act.1 _ (cm_lt c) (cm_ne_fgn c))
  simp only [kidConfirm, e1, onChildShutdown]
  by_cases hst : s1.st = .shuttingDown
  · rw [if_pos hst]
    rcases g with ⟨q1, q2, q3, q4, q5, _⟩ | ⟨q1, q2⟩
    · obtain ⟨s2, e2, x2, g2⟩ := cont_A (env := env) q1 hst
      refine ⟨s2, e2, l1.ext x2, ?_⟩
      rcases g2 with ⟨w1, w2, w3, w4⟩ | ⟨w1, w2, _⟩
      · refine Or.inl ⟨w1, q2.soft w3, w2.trans (hst.symm.trans q3), by rw [x2.2.2, q4], by rw [x2.2.1]; exact q5, fun he _ => w4 he⟩
      · exact Or.inr ⟨w1, w2⟩
    · have hln : s1.lifeNull = false := by
        cases e : s1.lifeNull
        · rfl
        · have := q1.ln e c.cm (cm_lt c) (by have := c.hcm1; omega) (by simp)
          rw [hact] at this; cases this
      obtain ⟨s2, g1, g2, g3, g4⟩ := cont_B env (sc c env 1) q1 hln
      obtain ⟨z1, z2, z3, z4, z5, z6, z7, z8, z9, z10, z11⟩ := g4
      refine ⟨s2, g1, ?_, Or.inr ⟨g2, g3⟩⟩
      show Lg s2.log s2.kids s2.conf
      rw [z4, z11, z6]; exact l1
  · rw [if_neg hst]
    exact ⟨s1, rfl, l1, g⟩

/-- a request is made -/
theorem request_N {s : State} (h : N s) {a ty : Nat} (ha : a = 0 ∨ a ∉ s.conf) : N (request a ty s) := by
  simp only [request]
  split
  · exact h
  · refine ⟨?_, ?_⟩
    · intro b hb hc
      obtain ⟨x, h1, h2⟩ := h.ex b hb hc
      exact ⟨x, by simp [h1], h2⟩
    · intro x b hx hb h0 hc
      rcases List.mem_append.mp hx with q | q
      · exact h.un x b q hb h0 hc
      · have : x = .map a ty s.next := by simpa using q
        subst this
        simp only [mapOf, Option.some.injEq] at hb
        subst hb
        rcases ha with q | q
        · exact absurd q h0
        · exact absurd hc q

/-- the child is asked -/
theorem ask_A {c : Cfg} {s : State} (h : A c s none) (hn : N s) (a : Nat) :
    A c { request 0 shutTy s with asked := s.asked ++ [a] } none ∧ N { request 0 shutTy s with asked := s.asked ++ [a] } ∧
      Ext s { request 0 shutTy s with asked := s.asked ++ [a] } ∧ (request 0 shutTy s).st = s.st := by
  obtain ⟨r1, r2, r3, r4, r5, r6⟩ := request_A h (a := 0) (ty := shutTy) (Or.inl rfl)
  have r7 := asked_A r1 [a] r6
  rw [r5] at r7
  have := request_N hn (a := 0) (ty := shutTy) (Or.inl rfl)
  exact ⟨r7, ⟨this.ex, this.un⟩, ⟨r2.1, r2.2.1, r2.2.2⟩, r3⟩

theorem cont_good {c : Cfg} {env : Env} {s : State} (h : A c s none) (hl : SLg s) (hn : N s) (hst : s.st = .shuttingDown) :
    ∃ s', sc c env depth s = .ok s' ∧ Good c env s' := by
  obtain ⟨s', e1, e2, e3⟩ := cont_A (env := env) h hst
  refine ⟨s', e1, hl.ext e2, ?_⟩
  rcases e3 with ⟨q1, _, q3, q4⟩ | ⟨q1, q2, _⟩
  · exact Or.inl ⟨q1, hn.soft q3, fun he _ => q4 he⟩
  · exact Or.inr (Or.inl ⟨q1, q2⟩)

/-- **Every step keeps the invariant, or is not possible.** -/
theorem step_good {c : Cfg} {env : Env} {s : State} (hg : Good c env s) (op : Op) :
    step c env s op = .error .illegal ∨ ∃ s', step c env s op = .ok s' ∧ Good c env s' := by
  obtain ⟨hl, hA | hB | hD⟩ := hg
  · obtain ⟨h, hn, hp⟩ := hA
    cases op with
    | shutdown =>
      simp only [step]
      split
      · have h1 : A c { s with st := .shuttingDown } none :=
          ⟨h.base, Or.inr rfl, h.rs, h.rl, h.rb, h.act, h.ln, h.cor, h.ol, h.oc, h.km, h.sm, h.sr, h.ask, h.kn, h.kz,
            fun hf => ⟨(h.cv hf).1, rfl⟩, h.ca, h.nu, h.pp, h.rp⟩
        exact Or.inr (cont_good h1 hl ⟨hn.ex, hn.un⟩ rfl)
      · exact Or.inl rfl
    | cont p =>
      simp only [step]
      split
      · next q => exact Or.inr (cont_good h hl hn q.1)
      · exact Or.inl rfl
    | join p =>
      simp only [step]
      split
      · next q =>
        obtain ⟨q1, q2, q3, q4⟩ := q
        have hsl : c.shut = c.life + 1 := rfl
        refine Or.inr ⟨_, rfl, hl, Or.inl ⟨?_, ⟨hn.ex, hn.un⟩, hp⟩⟩
        refine ⟨h.base, h.st, ?_, ?_, ?_, h.act, h.ln, h.cor, h.ol, h.oc, h.km, h.sm, h.sr, h.ask, h.kn, h.kz, ?_, h.ca,
          h.nu, h.pp, h.rp⟩
        · exact (upd_ne s.react true (by omega)).trans h.rs
        · exact (upd_ne s.react true (by omega)).trans h.rl
        · intro i hi; exact (upd_ne s.react true (by omega)).trans (h.rb i hi)
        · intro hf; exact h.cv ((upd_ne s.react true (Ne.symm q4.1)).symm.trans hf)
      · exact Or.inl rfl
    | confirm =>
      obtain ⟨s', e1, e2, e3⟩ := confirm_A (env := env) h hl hn hp
      refine Or.inr ⟨s', e1, e2, ?_⟩
      rcases e3 with ⟨q1, q2, q3⟩ | q
      · exact Or.inl ⟨q1, q2.n, q3⟩
      · exact Or.inr (Or.inl q)
    | subscribe b =>
      simp only [step]
      split
      · have hlg : ∀ x, Lg (.made x :: s.log) s.kids s.conf := by
          intro x
          refine ⟨?_, ?_, ?_, ?_⟩
          · intro a ha
            rcases hl.cr a (by simpa using ha) with w | w
            · exact Or.inl (by simp [w])
            · exact Or.inr w
          · intro a h0 ha; simp [hl.gn a h0 (by simpa using ha)]
          · intro a ty k h0 ha; simp [hl.rm a ty k h0 (by simpa using ha)]
          · intro a ha; simp [hl.cf a ha]
        cases b with
        | true =>
          refine Or.inr ⟨_, rfl, hlg _, Or.inl ⟨?_, ⟨hn.ex, hn.un⟩, hp⟩⟩
          have hnb : ¬ below s.next (.user s.next) := by simp [below]
          refine ⟨?_, h.st, h.rs, h.rl, h.rb, ?_, h.ln, ?_, ?_, ?_, h.km, h.sm, h.sr, h.ask, h.kn, h.kz, h.cv, h.ca, h.nu,
            by simp [h.pp], by simpa using h.rp⟩
          · refine h.base.add hnb (by simp [below]) ?_ ?_ ?_ ?_ h.base.mn
            · intro p y
              show y ∈ upd s.own c.starter _ p ↔ _
              by_cases e : p = c.starter
              · subst e; rw [upd_same]; simp [owner]
              · rw [upd_ne _ _ e]; simp [owner, Ne.symm e]
            · intro p
              show (upd s.own c.starter _ p).Nodup
              by_cases e : p = c.starter
              · subst e
                rw [upd_same, List.nodup_append]
                refine ⟨h.base.on _, by simp, ?_⟩
                intro x hx y hy e
                have : y = .user s.next := by simpa using hy
                exact hnb (h.base.fo _ _ (by rw [← this, ← e]; exact hx))
              · rw [upd_ne _ _ e]; exact h.base.on p
            · intro p hp'
              have : p ≠ c.starter := by have := starter_lt c; omega
              exact (upd_ne _ _ this).trans (h.base.ob p hp')
            · intro y; simp [mapOf]
          · exact ⟨h.act.1, fun z => (upd_ne s.own _ (Ne.symm (starter_ne_fgn c))).trans (h.act.2.1 z), h.act.2.2⟩
          · intro p x hp' hpf hx
            obtain ⟨z1, z2⟩ := h.cor p x hp' hpf hx
            refine ⟨?_, z2⟩
            show x ∈ upd s.own c.starter _ p
            by_cases e : p = c.starter
            · subst e; rw [upd_same]; simp [z1]
            · rw [upd_ne _ _ e]; exact z1
          · exact (upd_ne s.own _ (Ne.symm (starter_ne_life c))).trans h.ol
          · exact (upd_ne s.own _ (Ne.symm (starter_ne_cm c))).trans h.oc
        | false =>
          refine Or.inr ⟨_, rfl, hlg _, Or.inl ⟨?_, ⟨hn.ex, hn.un⟩, hp⟩⟩
          have hnb : ¬ below s.next (.anon s.next) := by simp [below]
          refine ⟨?_, h.st, h.rs, h.rl, h.rb, h.act, h.ln, h.cor, h.ol, h.oc, h.km, h.sm, h.sr, h.ask, h.kn, h.kz, h.cv, h.ca, h.nu,
            by simp [h.pp], by simpa using h.rp⟩
          exact h.base.add hnb (by simp [below]) (by intro p y; simp [owner]) h.base.on h.base.ob (by intro y; simp [mapOf]) h.base.mn
      · exact Or.inl rfl
    | unsubscribe x =>
      have key : ∀ x, Live s.own s.points x → mapOf x = none → (∀ p k, x ≠ .plug p k) →
          Good c env (mark x s) := by
        intro x hx hm hpl
        have e0 : mark x s = markAll [x] s := rfl
        rw [e0]
        obtain ⟨l', U, e, g1, g2, g3, g4⟩ := markAll_spec [x] s
        rw [e]
        refine ⟨hl, Or.inl ⟨?_, ⟨hn.ex, ?_⟩, hp⟩⟩
        · refine ⟨?_, h.st, h.rs, h.rl, h.rb, h.act, h.ln, ?_, h.ol, h.oc, h.km, ?_, h.sr, h.ask, h.kn, h.kz, h.cv, h.ca, ?_, h.pp, h.rp⟩
          · refine h.base.mark (l := [x]) ?_ ?_ g1 g2 g3
            · intro y hy
              have : y = x := by simpa using hy
              rw [this]; exact hx
            · intro y a hy ha
              have : y = x := by simpa using hy
              rw [this, hm] at ha; cases ha
          · intro p y hp' hpf hy
            refine ⟨(h.cor p y hp' hpf hy).1, ?_⟩
            intro hu
            rcases (g1 y).mp hu with q | q
            · exact (h.cor p y hp' hpf hy).2 q
            · have : y = x := by simpa using q
              obtain ⟨k, _, ek⟩ := (mem_core c p y).mp hy
              exact hpl p k (by rw [← this, ek])
          · intro y hy ha hu
            rcases (g1 y).mp hu with q | q
            · exact h.sm y hy ha q
            · have : y = x := by simpa using q
              rw [this, hm] at ha; cases ha
          · intro p k hu
            rcases (g1 _).mp hu with q | q
            · exact h.nu p k q
            · exact (hpl p k (List.mem_singleton.mp q).symm).elim
        · intro y b hy hb h0 hc
          exact (g1 y).mpr (Or.inl (hn.un y b hy hb h0 hc))
      simp only [step]
      split
      · cases x with
        | plug p k => exact Or.inl rfl
        | map a ty k => exact Or.inl rfl
        | user k =>
          simp only []
          split
          · next q => exact Or.inr ⟨_, rfl, key _ (Or.inl ⟨_, q⟩) rfl (by simp)⟩
          · exact Or.inl rfl
        | anon k =>
          simp only []
          split
          · next q => exact Or.inr ⟨_, rfl, key _ (Or.inr ⟨q, rfl⟩) rfl (by simp)⟩
          · exact Or.inl rfl
      · exact Or.inl rfl
    | create a =>
      simp only [step]
      split
      · next q =>
        obtain ⟨q1, q2, q3, q4, q5⟩ := q
        have hst : s.st ≠ .shuttingDown := by
          intro e; rw [e] at q1; exact absurd q1 (by decide)
        refine Or.inr ⟨_, rfl, ⟨?_, ?_, ?_, ?_⟩, Or.inl ⟨?_, ⟨?_, hn.un⟩, fun _ e => absurd e hst⟩⟩
        · intro b hb
          rcases List.mem_cons.mp hb with w | w
          · have : b = a := by simpa using w
            exact Or.inr (by simp [this])
          · rcases hl.cr b w with w | w
            · exact Or.inl (by simp [w])
            · exact Or.inr (by simp [w])
        · intro b h0 hb; simp [hl.gn b h0 (by simpa using hb)]
        · intro b ty k h0 hb; simp [hl.rm b ty k h0 (by simpa using hb)]
        · intro b hb; simp [hl.cf b hb]
        · refine ⟨h.base.event (by simp) (by simp), h.st, h.rs, h.rl, h.rb, h.act, h.ln, h.cor, h.ol, h.oc, ?_, h.sm, h.sr, h.ask, ?_, ?_, ?_,
            h.ca, h.nu, h.pp, by simpa using h.rp⟩
          · intro x b hx hb
            rcases h.km x b hx hb with w | w
            · exact Or.inl w
            · exact Or.inr (by simp [w])
          · exact List.nodup_cons.mpr ⟨q3, h.kn⟩
          · simp only [List.mem_cons, not_or]; exact ⟨Ne.symm q2, h.kz⟩
          · intro hf; exact absurd (h.cv hf).2 hst
        · intro b hb hc
          rcases List.mem_cons.mp hb with w | w
          · rw [w] at hc; exact absurd hc q5
          · exact hn.ex b w hc
      · exact Or.inl rfl
    | request a ty =>
      simp only [step]
      split
      · next q =>
        obtain ⟨r1, r2, r3, r4, r5, r6⟩ := request_A h (a := a) (ty := ty) (q.2.imp id And.left)
        refine Or.inr ⟨_, rfl, hl.ext r2, Or.inl ⟨r1, request_N hn (q.2.imp id And.right), ?_⟩⟩
        rw [r3, Waits, r2.2.1, r5]; exact hp
      · exact Or.inl rfl
    | ask a =>
      simp only [step]
      split
      · split
        · exact Or.inr ⟨s, rfl, hl, Or.inl ⟨h, hn, hp⟩⟩
        · obtain ⟨r1, r2, r3, r4⟩ := ask_A h hn a
          refine Or.inr ⟨_, rfl, hl.ext r3, Or.inl ⟨r1, r2, ?_⟩⟩
          rw [Waits, r3.2.1]
          intro he e
          exact ⟨(hp he (r4.symm.trans e)).1, fun b hb => List.mem_append_left _ ((hp he (r4.symm.trans e)).2 b hb)⟩
      · exact Or.inl rfl
    | kidConfirm a =>
      simp only [step]
      split
      · next q =>
        obtain ⟨s', e1, e2, e3⟩ := kidConfirm_A (env := env) h hl hn q.1 q.2.1 q.2.2 (fun he e => (hp he e).2)
        refine Or.inr ⟨s', e1, e2, ?_⟩
        rcases e3 with ⟨q1, q2, _, _, _, q3⟩ | q
        · exact Or.inl ⟨q1, q2, q3⟩
        · exact Or.inr (Or.inl q)
      · exact Or.inl rfl
    | foreignLeft =>
      simp only [step]
      split
      · next q =>
        have hact : s.active c.fgn = true := by
          cases hz : s.active c.fgn
          · exact absurd (h.act.2.1 hz) q.2
          · rfl
        simp only [baseDeactivate]
        rw [if_pos hact, if_neg q.2, if_neg (by rw [h.ln]; simp)]
        obtain ⟨l', U, e, g1, g2, g3, g4⟩ := markAll_spec (s.own c.fgn).reverse s
        rw [e]
        have how : ∀ x, x ∈ (s.own c.fgn).reverse → owner c x = some c.fgn := fun x hx => h.base.ow _ x (by simpa using hx)
        refine Or.inr ⟨_, rfl, hl, Or.inl ⟨?_, ⟨hn.ex, ?_⟩, hp⟩⟩
        · refine ⟨?_, h.st, h.rs, h.rl, h.rb, h.act, h.ln, ?_, h.ol, h.oc, h.km, ?_, h.sr, h.ask, h.kn, h.kz, h.cv, h.ca, ?_, h.pp, h.rp⟩
          · refine h.base.mark (l := (s.own c.fgn).reverse) (fun x hx => Or.inl ⟨c.fgn, by simpa using hx⟩) ?_ g1 g2 g3
            intro x a hx ha
            have := how x hx
            rw [np_owner (np_of_map (by rw [ha]; rfl))] at this; cases this
          · intro p y hp' hpf hy
            refine ⟨(h.cor p y hp' hpf hy).1, ?_⟩
            intro hu
            rcases (g1 y).mp hu with r | r
            · exact (h.cor p y hp' hpf hy).2 r
            · have := how y r
              rw [owner_of_core hy] at this
              exact hpf (Option.some.inj this)
          · intro y hy ha hu
            rcases (g1 y).mp hu with r | r
            · exact h.sm y hy ha r
            · have := how y r
              rw [np_owner (np_of_map (by rw [ha]; rfl))] at this; cases this
          · intro p k hu
            rcases (g1 _).mp hu with r | r
            · exact h.nu p k r
            · have := how _ r
              simpa [owner] using this
        · intro y b hy hb h0 hc
          exact (g1 y).mpr (Or.inl (hn.un y b hy hb h0 hc))
      · exact Or.inl rfl
  · obtain ⟨h, hk⟩ := hB
    have hrs : s.react c.shut ≠ true := by rw [h.ro _ (shut_lt c) (shut_ne_life c)]; simp
    have hrank : ¬ s.st.rank < AState.shuttingDown.rank := by rw [h.st]; decide
    cases op with
    | shutdown => exact Or.inl (if_neg hrank)
    | cont p =>
      simp only [step]
      split
      · next q =>
        have hln : s.lifeNull = false := by
          cases e : s.lifeNull
          · rfl
          · have := h.ln e p q.2.1 q.2.2.2.1 (by simp)
            rw [q.2.2.1] at this; cases this
        obtain ⟨s', g1, g2, g3, g4⟩ := cont_B env (sc c env 1) h hln
        obtain ⟨z1, z2, z3, z4, z5, z6, z7, z8, z9, z10, z11⟩ := g4
        refine Or.inr ⟨s', g1, ?_, Or.inr (Or.inl ⟨g2, g3⟩)⟩
        show Lg s'.log s'.kids s'.conf
        rw [z4, z11, z6]; exact hl
      · exact Or.inl rfl
    | join p => exact Or.inl (if_neg fun q => hrs q.1)
    | confirm =>
      obtain ⟨s', e1, e2, _, e3⟩ := confirm_B (env := env) h hk hl
      refine Or.inr ⟨s', e1, e2, ?_⟩
      rcases e3 with ⟨q1, q2, _⟩ | q
      · exact Or.inr (Or.inl ⟨q1, q2⟩)
      · exact Or.inr (Or.inr q)
    | subscribe b => exact Or.inl (if_neg hrs)
    | unsubscribe x => exact Or.inl (if_neg hrs)
    | create a => exact Or.inl (if_neg fun q => hrank q.1)
    | request a ty => exact Or.inl (if_neg fun q => hrs q.1)
    | ask a => exact Or.inl (if_neg fun q => hrs q.1)
    | kidConfirm a => exact Or.inl (if_neg fun q => by rw [h.kd] at q; cases q.1)
    | foreignLeft =>
      simp only [step]
      split
      · exact Or.inr ⟨s, base_nop h (fgn_lt c) (Ne.symm (life_ne_fgn c)) (by simp) (fun e => absurd e c.hf3), hl,
          Or.inr (Or.inl ⟨h, hk⟩)⟩
      · exact Or.inl rfl
  · have hrs : s.react c.shut ≠ true := by rw [hD.rs]; simp
    have hrank : ¬ s.st.rank < AState.shuttingDown.rank := by rw [hD.st]; decide
    cases op with
    | shutdown => exact Or.inl (if_neg hrank)
    | cont p => exact Or.inl (if_neg fun q => by rw [hD.st] at q; cases q.1)
    | join p => exact Or.inl (if_neg fun q => hrs q.1)
    | confirm =>
      refine Or.inr ⟨s, ?_, hl, Or.inr (Or.inr hD)⟩
      simp only [step, confirm, hD.queue]
    | subscribe b => exact Or.inl (if_neg hrs)
    | unsubscribe x => exact Or.inl (if_neg hrs)
    | create a => exact Or.inl (if_neg fun q => hrank q.1)
    | request a ty => exact Or.inl (if_neg fun q => hrs q.1)
    | ask a => exact Or.inl (if_neg fun q => hrs q.1)
    | kidConfirm a => exact Or.inl (if_neg fun q => by rw [hD.kids] at q; cases q.1)
    | foreignLeft => exact Or.inl (if_neg fun q => by rw [hD.st] at q; cases q.1)

theorem run_good {c : Cfg} {env : Env} (ops : List Op) : ∀ {s : State}, Good c env s →
    run c env s ops = .error .illegal ∨ ∃ s', run c env s ops = .ok s' ∧ Good c env s' := by
  induction ops with
  | nil => intro s h; exact Or.inr ⟨s, rfl, h⟩
  | cons op ops ih =>
    intro s h
    simp only [run]
    rcases step_good h op with e | ⟨s', e, g⟩
    · rw [e]; exact Or.inl rfl
    · rw [e]; exact ih g

theorem run_append {c : Cfg} {env : Env} (ops ops' : List Op) : ∀ {s s' : State}, run c env s ops = .ok s' →
    run c env s (ops ++ ops') = run c env s' ops' := by
  induction ops with
  | nil => intro s s' h; obtain rfl := Except.ok.inj h; rfl
  | cons op ops ih =>
    intro s s' h
    simp only [run, List.cons_append] at h ⊢
    split at h
    · cases h
    · next e => exact ih h

end Verif.SupTeardown
