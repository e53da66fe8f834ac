import Verif.SupTeardown.Continue
/-! # A round of `shutdown_continue` before the plugins are deactivated (C72) -/

namespace Verif.SupTeardown
open Verif

/-- events that do not concern children -/
def Ev.quiet : Ev → Bool
  | .answer _ _ => true
  | .gone a => decide (a = 0)
  | .made x => np x
  | _ => false

/-- only events that do not concern children are added, the children stay -/
def Ext (s s' : State) : Prop :=
  (∃ d, s'.log = d ++ s.log ∧ ∀ e, e ∈ d → e.quiet = true) ∧ s'.kids = s.kids ∧ s'.conf = s.conf

theorem Ext.refl (s : State) : Ext s s := ⟨⟨[], rfl, by simp⟩, rfl, rfl⟩
theorem Ext.trans {a b d : State} (h : Ext a b) (h' : Ext b d) : Ext a d := by
  obtain ⟨⟨x, e1, q1⟩, k1, c1⟩ := h
  obtain ⟨⟨y, e2, q2⟩, k2, c2⟩ := h'
  refine ⟨⟨y ++ x, by rw [e2, e1, List.append_assoc], ?_⟩, k2.trans k1, c2.trans c1⟩
  intro e he
  rcases List.mem_append.mp he with q | q
  · exact q2 e q
  · exact q1 e q

/-- nothing is unsubscribed, requests are made for the supervisor itself only -/
structure Soft (s s' : State) : Prop where
  uns : s'.uns = s.uns
  queue : s'.queue = s.queue
  st : s'.st = s.st
  kids : s'.kids = s.kids
  conf : s'.conf = s.conf
  old : ∀ x, x ∈ s.mapping → x ∈ s'.mapping
  new : ∀ x, x ∈ s'.mapping → x ∈ s.mapping ∨ mapOf x = some 0

theorem Soft.refl (s : State) : Soft s s := ⟨rfl, rfl, rfl, rfl, rfl, fun _ h => h, fun _ h => Or.inl h⟩
theorem Soft.trans {a b d : State} (h : Soft a b) (h' : Soft b d) : Soft a d := by
  refine ⟨h'.uns.trans h.uns, h'.queue.trans h.queue, h'.st.trans h.st, h'.kids.trans h.kids, h'.conf.trans h.conf,
    fun x hx => h'.old x (h.old x hx), fun x hx => ?_⟩
  rcases h'.new x hx with q | q
  · exact h.new x q
  · exact Or.inr q

theorem askAll_soft (s : State) : Soft s (askAll s) := by
  simp only [askAll]
  split
  · exact Soft.refl s
  · simp only [request]
    split
    · exact ⟨rfl, rfl, rfl, rfl, rfl, fun _ h => h, fun _ h => Or.inl h⟩
    · refine ⟨rfl, rfl, rfl, rfl, rfl, fun x h => by simp [h], fun x h => ?_⟩
      rcases List.mem_append.mp h with q | q
      · exact Or.inl q
      · have : x = .map 0 shutTy s.next := by simpa using q
        rw [this]; exact Or.inr rfl

theorem request_A {c : Cfg} {s : State} {fl : Option Sub} (h : A c s fl) {a ty : Nat} (ha : a = 0 ∨ a ∈ s.kids) :
    A c (request a ty s) fl ∧ Ext s (request a ty s) ∧ (request a ty s).st = s.st ∧
      (request a ty s).react = s.react ∧ (request a ty s).asked = s.asked ∧
      ∃ x, x ∈ (request a ty s).mapping ∧ mapOf x = some a := by
  simp only [request]
  split
  · next hany =>
    refine ⟨h, Ext.refl s, rfl, rfl, rfl, ?_⟩
    obtain ⟨x, hx, hp⟩ := List.any_eq_true.mp hany
    refine ⟨x, hx, ?_⟩
    cases x <;> simp_all [mapOf]
  · have hnb : ¬ below s.next (.map a ty s.next) := by simp [below]
    have hxm : Sub.map a ty s.next ∉ s.mapping := fun e => hnb (h.base.fp _ ((h.base.mp _).mp e).1)
    have hxu : Sub.map a ty s.next ∉ s.uns := fun e => hnb (h.base.fu _ e)
    refine ⟨?_, ⟨⟨[.made (.map a ty s.next)], rfl, by simp [Ev.quiet, np]⟩, rfl, rfl⟩, rfl, rfl, rfl,
      ⟨.map a ty s.next, by simp, rfl⟩⟩
    refine ⟨?_, h.st, h.rs, h.rl, h.rb, h.act, h.ln, h.cor, h.ol, h.oc, ?_, ?_, h.sr, ?_, h.kn, h.kz, h.cv, h.ca, h.nu, by simp [h.pp],
      by simpa using h.rp⟩
    · refine h.base.add hnb (by simp [below]) ?_ h.base.on h.base.ob ?_ ?_
      · intro p y; simp [owner]
      · intro y; simp [mapOf]
      · rw [List.nodup_append]
        refine ⟨h.base.mn, by simp, ?_⟩
        intro x hx y hy e
        have : y = .map a ty s.next := by simpa using hy
        exact hxm (by rw [← this, ← e]; exact hx)
    · intro x b hx hb
      rcases List.mem_append.mp hx with q | q
      · exact h.km x b q hb
      · have : x = .map a ty s.next := by simpa using q
        subst this
        simp only [mapOf, Option.some.injEq] at hb
        rw [← hb]; exact ha
    · intro x hx hb
      rcases List.mem_append.mp hx with q | q
      · exact h.sm x q hb
      · have : x = .map a ty s.next := by simpa using q
        subst this
        exact hxu
    · intro hq
      obtain ⟨x, e1, e2⟩ := h.ask hq
      exact ⟨x, by simp [e1], e2⟩

theorem asked_A {c : Cfg} {s : State} {fl : Option Sub} (h : A c s fl) (l : List Nat)
    (hm : ∃ x, x ∈ s.mapping ∧ mapOf x = some 0) : A c { s with asked := s.asked ++ l } fl :=
  ⟨h.base, h.st, h.rs, h.rl, h.rb, h.act, h.ln, h.cor, h.ol, h.oc, h.km, h.sm, h.sr, fun _ => hm, h.kn, h.kz, h.cv,
    fun a ha => by simp [h.ca a ha], h.nu, h.pp, h.rp⟩

theorem askAll_A {c : Cfg} {s : State} {fl : Option Sub} (h : A c s fl) :
    A c (askAll s) fl ∧ Ext s (askAll s) ∧ (askAll s).st = s.st ∧ (askAll s).react = s.react ∧
      ∀ a, a ∈ (askAll s).kids → a ∈ (askAll s).asked := by
  simp only [askAll]
  split
  · next hall =>
    refine ⟨h, Ext.refl s, rfl, rfl, ?_⟩
    intro a ha
    simpa using List.all_eq_true.mp hall a ha
  · obtain ⟨h1, h2, h3, h4, h5, h6⟩ := request_A h (a := 0) (ty := shutTy) (Or.inl rfl)
    have h7 := asked_A h1 (s.kids.filter (fun a => decide (a ∉ s.asked))) h6
    rw [h5] at h7
    refine ⟨h7, ⟨h2.1, h2.2.1, h2.2.2⟩, h3, h4, ?_⟩
    intro a ha
    have ha : a ∈ s.kids := by rw [← h2.2.1]; exact ha
    by_cases e : a ∈ s.asked
    · exact List.mem_append.mpr (Or.inl e)
    · exact List.mem_append.mpr (Or.inr (List.mem_filter.mpr ⟨ha, by simpa using e⟩))

/-- a plugin agrees -/
theorem agree_A {c : Cfg} {s : State} {fl : Option Sub} (h : A c s fl) {p : Nat} (h1 : p ≠ c.life) (h2 : p ≠ c.shut)
    (h3 : p = c.cm → s.kids = [] ∧ s.st = .shuttingDown) : A c { s with react := upd s.react p false } fl := by
  refine ⟨h.base, h.st, ?_, ?_, ?_, h.act, h.ln, h.cor, h.ol, h.oc, h.km, h.sm, h.sr, h.ask, h.kn, h.kz, ?_, h.ca,
    h.nu, h.pp, h.rp⟩
  · exact (upd_ne s.react false (Ne.symm h2)).trans h.rs
  · exact (upd_ne s.react false (Ne.symm h1)).trans h.rl
  · intro q hq
    by_cases e : q = p
    · rw [e]; exact upd_same _ _ _
    · exact (upd_ne s.react false e).trans (h.rb q hq)
  · intro hf
    by_cases e : c.cm = p
    · exact h3 e.symm
    · exact h.cv ((upd_ne s.react false e).symm.trans hf)

theorem event_A {c : Cfg} {s : State} {fl : Option Sub} (h : A c s fl) (p : Nat) (b : Bool) :
    A c { s with log := .answer p b :: s.log } fl :=
  ⟨h.base.event (by simp) (by simp), h.st, h.rs, h.rl, h.rb, h.act, h.ln, h.cor, h.ol, h.oc, h.km, h.sm, h.sr, h.ask,
    h.kn, h.kz, h.cv, h.ca, h.nu, h.pp, by simpa using h.rp⟩

/-- the plugins after init_shutdown are asked -/
theorem pass_A {c : Cfg} {env : Env} {cont : State → Except Err State} {fl : Option Sub} (rest : List Nat) (l : List Nat) :
    ∀ {s : State}, A c s fl → s.st = .shuttingDown → (∀ p, p ∈ l → c.shut < p ∧ p < c.n) →
      (∃ s', pass c env cont (l ++ rest) s = .ok (s', false) ∧ A c s' fl ∧ s'.st = .shuttingDown ∧ Ext s s' ∧
        Soft s s' ∧
        ((∀ lg, env lg = true) → s'.kids ≠ [] ∧ ∀ a, a ∈ s'.kids → a ∈ s'.asked)) ∨
      (∃ s', pass c env cont (l ++ rest) s = pass c env cont rest s' ∧ A c s' fl ∧ s'.st = .shuttingDown ∧ Ext s s' ∧
        (∀ p, p ∈ l → s'.react p = false) ∧ (∀ p, s.react p = false → s'.react p = false)) := by
  induction l with
  | nil => intro s h hst _; exact Or.inr ⟨s, rfl, h, hst, Ext.refl s, by simp, fun _ h => h⟩
  | cons p l ih =>
    intro s h hst hl
    obtain ⟨hp1, hp2⟩ := hl p (by simp)
    have hpl : p ≠ c.life := by simp only [Cfg.shut] at hp1; omega
    have hps : p ≠ c.shut := by omega
    have hl' : ∀ q, q ∈ l → c.shut < q ∧ q < c.n := fun q hq => hl q (by simp [hq])
    by_cases hr : s.react p = true
    · by_cases hc : p = c.cm
      · obtain ⟨a1, a2, a3, a4, a5⟩ := askAll_A h
        have hv : vote c env cont p s = .ok (askAll s, decide (actors s = 1)) := by
          simp only [vote]
          rw [if_neg hpl, if_neg hps, if_pos hc, cmVote, if_pos h.sr]
        have hact : actors s = s.kids.length + 1 := by simp [actors, h.sr]
        by_cases hk : s.kids = []
        · have hd : decide (actors s = 1) = true := by simp [hact, hk]
          rw [hd] at hv
          have a6 := agree_A a1 hpl hps (fun _ => ⟨by rw [a2.2.1, hk], by rw [a3]; exact hst⟩)
          have e6 : Ext s { askAll s with react := upd (askAll s).react p false } := ⟨a2.1, a2.2.1, a2.2.2⟩
          have f6 : Soft s { askAll s with react := upd (askAll s).react p false } := by
            have := askAll_soft s
            exact ⟨this.uns, this.queue, this.st, this.kids, this.conf, this.old, this.new⟩
          rw [List.cons_append, pass_agree hr hv]
          rcases ih a6 (a3.trans hst) hl' with ⟨s', q1, q2, q3, q4, q4', q5⟩ | ⟨s', q1, q2, q3, q4, q5, q6⟩
          · exact Or.inl ⟨s', q1, q2, q3, e6.trans q4, f6.trans q4', q5⟩
          · refine Or.inr ⟨s', q1, q2, q3, e6.trans q4, ?_, ?_⟩
            · intro q hq
              rcases List.mem_cons.mp hq with e | e
              · rw [e]; exact q6 p (upd_same _ _ _)
              · exact q5 q e
            · intro q hq
              refine q6 q ?_
              by_cases e : q = p
              · rw [e]; exact upd_same _ _ _
              · exact (upd_ne _ _ e).trans (by rw [a4]; exact hq)
        · have hd : decide (actors s = 1) = false := by
            simp only [decide_eq_false_iff_not, hact]
            intro e
            exact hk (List.length_eq_zero_iff.mp (by omega))
          rw [hd] at hv
          refine Or.inl ⟨askAll s, ?_, a1, a3.trans hst, a2, askAll_soft s, fun _ => ⟨by rw [a2.2.1]; exact hk, a5⟩⟩
          rw [List.cons_append, pass_refuse hr hv]
      · have hv : vote c env cont p s = .ok ({ s with log := .answer p (env s.log) :: s.log }, env s.log) := by
          simp only [vote]
          rw [if_neg hpl, if_neg hps, if_neg hc]
        have a1 := event_A h p (env s.log)
        have e1 : Ext s { s with log := .answer p (env s.log) :: s.log } :=
          ⟨⟨[.answer p (env s.log)], rfl, by simp [Ev.quiet]⟩, rfl, rfl⟩
        cases he : env s.log with
        | true =>
          rw [he] at hv a1 e1
          have a6 := agree_A a1 hpl hps (fun e => absurd e hc)
          have e6 : Ext s { s with log := .answer p true :: s.log, react := upd s.react p false } := ⟨e1.1, e1.2.1, e1.2.2⟩
          have f6 : Soft s { s with log := .answer p true :: s.log, react := upd s.react p false } :=
            ⟨rfl, rfl, rfl, rfl, rfl, fun _ h => h, fun _ h => Or.inl h⟩
          rw [List.cons_append, pass_agree hr hv]
          rcases ih a6 hst hl' with ⟨s', q1, q2, q3, q4, q4', q5⟩ | ⟨s', q1, q2, q3, q4, q5, q6⟩
          · exact Or.inl ⟨s', q1, q2, q3, e6.trans q4, f6.trans q4', q5⟩
          · refine Or.inr ⟨s', q1, q2, q3, e6.trans q4, ?_, ?_⟩
            · intro q hq
              rcases List.mem_cons.mp hq with e | e
              · rw [e]; exact q6 p (upd_same _ _ _)
              · exact q5 q e
            · intro q hq
              refine q6 q ?_
              by_cases e : q = p
              · rw [e]; exact upd_same _ _ _
              · exact (upd_ne _ _ e).trans hq
        | false =>
          rw [he] at hv a1 e1
          refine Or.inl ⟨_, by rw [List.cons_append, pass_refuse hr hv], a1, hst, e1, ⟨rfl, rfl, rfl, rfl, rfl, fun _ h => h, fun _ h => Or.inl h⟩, ?_⟩
          intro hall
          rw [hall] at he; cases he
    · have hr' : s.react p = false := by simpa using hr
      have hs : pass c env cont (p :: l ++ rest) s = pass c env cont (l ++ rest) s := by
        rw [List.cons_append, pass, if_neg hr]
      rw [hs]
      rcases ih h hst hl' with ⟨s', q1, q2, q3, q4, q4', q5⟩ | ⟨s', q1, q2, q3, q4, q5, q6⟩
      · exact Or.inl ⟨s', q1, q2, q3, q4, q4', q5⟩
      · refine Or.inr ⟨s', q1, q2, q3, q4, ?_, q6⟩
        intro q hq
        rcases List.mem_cons.mp hq with e | e
        · rw [e]; exact q6 p hr'
        · exact q5 q e

/-- the deactivation begins -/
theorem A.toDP {c : Cfg} {s : State} {fl : Option Sub} (h : A c s fl) (hst : s.st = .shuttingDown) (hk : s.kids = [])
    (hr : ∀ p, c.shut < p → p < c.n → s.react p = false) : DP c s fl (fun _ => False) := by
  have hkm : ∀ x a, x ∈ s.mapping → mapOf x = some a → a = 0 := by
    intro x a hx ha
    rcases h.km x a hx ha with q | q
    · exact q
    · rw [hk] at q; cases q
  refine ⟨h.base, hst, hk, h.rl, ?_, h.ln, h.act.1 _ (life_lt c) (life_ne_fgn c), h.ol, fun x hx => (h.cor _ x (life_lt c) (life_ne_fgn c) hx).2, h.oc,
    ?_, fun _ _ _ q => q.elim, fun q => q.elim, ?_, hkm⟩
  rotate_left
  · intro p hp _
    by_cases e : p = c.fgn
    · subst e
      cases ha : s.active c.fgn
      · exact Or.inr ⟨rfl, rfl, h.act.2.1 ha, h.act.2.2⟩
      · exact Or.inl rfl
    · exact Or.inl (h.act.1 p hp e)
  rotate_left
  · intro p hp h1 h2
    by_cases e : c.shut < p
    · exact hr p e hp
    · refine h.rb p ?_
      simp only [Cfg.shut] at e h2
      omega
  · by_cases hm : s.mapping = []
    · exact Or.inr (Or.inr ⟨hm, h.sr, fun q => q⟩)
    · exact Or.inl ⟨hm, h.sr, fun x hx => (h.cor _ x (cm_lt c) (cm_ne_fgn c) hx).2⟩

/-- the deactivation of the plugins, including the nested round -/
theorem shutVote_A {c : Cfg} {env : Env} {s : State} {fl : Option Sub} (h : A c s fl) (hst : s.st = .shuttingDown)
    (hk : s.kids = []) (hr : ∀ p, c.shut < p → p < c.n → s.react p = false) :
    ∃ s', deactAll c (sc c env 1) c.order s = .ok s' ∧ Ext s s' ∧
      (DP c s' fl (fun q => q ∈ c.order) ∨ (B c s' fl none ∧ s'.lifeNull = false ∧ s'.own c.cm = core c c.cm)) := by
  have hdp := h.toDP hst hk hr
  by_cases hm : s.mapping = []
  · obtain ⟨hi, lo, e, h1, h2⟩ := order_split c c.cm (cm_lt c)
    obtain ⟨s1, g1, g2, g3, g4⟩ := deactAll_DP (sc c env 1) hi hdp (fun p hp => ((h1 p).mp hp).2)
      (Or.inl (fun hh => by have := (h1 _).mp hh; omega))
    obtain ⟨q1, q2, q3, q4, q5, q6, q7, q8⟩ := g3
    have hrs : s1.react c.shut = true := by
      rw [g4, h.rs]
      intro hh
      have := ((h1 _).mp hh).1
      have := c.hcm1
      simp only [Cfg.shut] at *
      omega
    have hact : s1.active c.cm = true := (g2.nd _ (cm_lt c) (by
      rintro (q | q)
      · exact q
      · have := (h1 _).mp q; omega)).resolve_right (fun z => cm_ne_fgn c z.1)
    have hnd : ¬ (False ∨ c.cm ∈ hi) := by
      rintro (q | q)
      · exact q
      · have := (h1 _).mp q; omega
    have hm1 : s1.mapping = [] := q2.trans hm
    have hsr1 : s1.selfRec = true := q5.trans h.sr
    -- the nested round
    have hdp2 : DP c { s1 with deact := upd s1.deact c.cm true, selfRec := false, log := .gone 0 :: s1.log } fl
        (fun q => False ∨ q ∈ hi) := by
      refine ⟨g2.base.event (by simp) (by simp), g2.st, g2.kd, g2.rl, g2.ro, g2.ln, g2.al, g2.ol, g2.olu, g2.oc, ?_, ?_, ?_, ?_,
        g2.km⟩
      · intro q hq hd
        rcases g2.nd q hq hd with g | ⟨z1, z2, z3, z4⟩
        · exact Or.inl g
        · exact Or.inr ⟨z1, z2, z3, by rw [z1]; rw [z1] at z4; simp [upd, c.hf3, z4]⟩
      · intro p a b d
        have hpc : p ≠ c.cm := by rintro rfl; exact hnd d
        have := g2.dn p a b d
        simpa [upd, hpc] using this
      · intro d
        have := g2.dlf d
        simpa [upd, Ne.symm (cm_ne_life c)] using this
      · exact Or.inr (Or.inl ⟨hm1, rfl, fun d => absurd d hnd⟩)
    obtain ⟨s2, k1, k2, k3, k4, k5, k6, k7, k8, k9, k10⟩ := cont_nested env (sc c env 0) hdp2 rfl hrs
    have hact2 : s2.active c.cm = true := by
      cases e2 : s2.active c.cm
      · have := (k2.dn c.cm (cm_lt c) (cm_ne_life c) (by simp)).2.2 e2
        rw [k5] at this
        exact absurd (g2.oc.symm.trans this) (core_cm c)
      · rfl
    have hd1 : deact1 c (sc c env 1) c.cm s1 = .ok s2 := by
      simp only [deact1]
      rw [if_pos hact, if_neg (cm_ne_life c), if_pos trivial]
      simp only [cmDeactivate]
      rw [if_pos hm1]
      have ha1 : actors { s1 with deact := upd s1.deact c.cm true } = 1 := by simp [actors, g2.kd, hsr1]
      rw [if_pos ha1]
      have hrm : removeChild c (sc c env 1) 0 { s1 with deact := upd s1.deact c.cm true } = .ok s2 := by
        simp only [removeChild]
        rw [if_pos (Or.inl ⟨trivial, hsr1⟩), if_pos trivial]
        have ha0 : actors { s1 with deact := upd s1.deact c.cm true, selfRec := false, log := .gone 0 :: s1.log } ≤ 1 := by
          simp [actors, g2.kd]
        rw [if_pos ⟨g2.st, ha0⟩]
        have : sc c env 1 { s1 with deact := upd s1.deact c.cm true, selfRec := false, log := .gone 0 :: s1.log } = .ok s2 := k1
        rw [this]
        simp only []
        rw [if_pos hact2]
      rw [hrm]
      exact base_nop k2 (cm_lt c) (cm_ne_life c) (by simp) (fun _ => k6.trans hm1)
    refine ⟨s2, ?_, ?_, Or.inr ⟨k2, k4, by rw [k5]; exact g2.oc⟩⟩
    · rw [e, deactAll_append, g1]
      simp only []
      rw [deactAll_cons, hd1]
      exact deactAll_B k2 _ lo (fun p hp => Nat.lt_trans ((h2 p).mp hp) (cm_lt c))
    · refine ⟨⟨[.gone 0], ?_, by simp [Ev.quiet]⟩, k2.kd.trans hk.symm, k9.trans q6⟩
      rw [k7]
      simp [q4]
  · obtain ⟨s1, g1, g2, g3, g4⟩ := deactAll_DP (sc c env 1) c.order hdp (fun p hp => (mem_order c p).mp hp)
      (Or.inr (Or.inl hm))
    obtain ⟨q1, q2, q3, q4, q5, q6, q7, q8⟩ := g3
    refine ⟨s1, g1, ⟨⟨[], by simp [q4], by simp⟩, g2.kd.trans hk.symm, q6⟩, Or.inl ?_⟩
    have e : (fun q => False ∨ q ∈ c.order) = (fun q => q ∈ c.order) := by funext q; simp
    rw [e] at g2
    exact g2

/-- a round before the plugins are deactivated: it ends with somebody refusing, or the plugins are deactivated -/
theorem cont_A {c : Cfg} {env : Env} {s : State} {fl : Option Sub} (h : A c s fl) (hst : s.st = .shuttingDown) :
    ∃ s', sc c env 2 s = .ok s' ∧ Ext s s' ∧
      ((A c s' fl ∧ s'.st = .shuttingDown ∧ Soft s s' ∧
          ((∀ lg, env lg = true) → s'.kids ≠ [] ∧ ∀ a, a ∈ s'.kids → a ∈ s'.asked)) ∨
        (B c s' fl none ∧ K c s' ∧ s'.own c.cm = core c c.cm)) := by
  obtain ⟨hi, lo2, e, h1⟩ := order_split2 c
  have hsc : sc c env 2 s = shutdownContinue c env (sc c env 1) s := rfl
  rw [hsc]
  simp only [shutdownContinue]
  rw [if_pos hst, e]
  rcases pass_A (env := env) (cont := sc c env 1) (c.shut :: c.life :: lo2) hi h hst (fun p hp => (h1 p).mp hp) with
    ⟨s', q1, q2, q3, q4, q4', q5⟩ | ⟨s', q1, q2, q3, q4, q5, q6⟩
  · rw [q1]
    exact ⟨s', rfl, q4, Or.inl ⟨q2, q3, q4', q5⟩⟩
  · have hcmr : s'.react c.cm = false := q5 _ ((h1 _).mpr ⟨by have := c.hcm1; simp only [Cfg.shut]; omega, cm_lt c⟩)
    obtain ⟨hk, _⟩ := q2.cv hcmr
    obtain ⟨s1, k1, k2, k3⟩ := shutVote_A (env := env) q2 q3 hk (fun p a b => q5 p ((h1 p).mpr ⟨a, b⟩))
    have hv : vote c env (sc c env 1) c.shut s' = .ok (s1, true) := by
      simp only [vote]
      rw [if_neg (shut_ne_life c), if_pos trivial, k1]
    rw [q1, pass_agree q2.rs hv]
    rcases k3 with k3 | ⟨k3, k4, k5⟩
    · have k3' : DP c { s1 with react := upd s1.react c.shut false } fl (fun q => q ∈ c.order) := by
        refine ⟨k3.base, k3.st, k3.kd, ?_, ?_, k3.ln, k3.al, k3.ol, k3.olu, k3.oc, k3.nd, k3.dn, k3.dlf, k3.cmc, k3.km⟩
        · exact (upd_ne s1.react false (Ne.symm (shut_ne_life c))).trans k3.rl
        · intro p a b d; exact (upd_ne s1.react false d).trans (k3.ro p a b d)
      obtain ⟨s2, m1, m2, m3, m4, m5, m6, m7, m8, m9, m10⟩ := lifeVote_DP env (sc c env 1) k3'
        (fun p hp => (mem_order c p).mpr hp) (upd_same _ _ _)
      rw [pass_refuse k3'.rl m1]
      refine ⟨s2, rfl, q4.trans (k2.trans ⟨⟨[], by simpa using m7, by simp⟩, m2.kd.trans k3.kd.symm, m9⟩),
        Or.inr ⟨m2, m3, by rw [m5]; exact k3.oc⟩⟩
    · have er : { s1 with react := upd s1.react c.shut false } = s1 := by
        rw [upd_self _ _ _ (k3.ro _ (shut_lt c) (shut_ne_life c))]
      rw [er]
      obtain ⟨s2, m1, m2, m3, m4⟩ := lifeVote_B env (sc c env 1) k3 k4
      rw [pass_refuse k3.rl m1]
      obtain ⟨z1, z2, z3, z4, z5, z6, z7, z8, z9, z10, z11⟩ := m4
      exact ⟨s2, rfl, q4.trans (k2.trans ⟨⟨[], by simpa using z4, by simp⟩, z11, z6⟩), Or.inr ⟨m2, m3, by rw [z1]; exact k5⟩⟩

end Verif.SupTeardown
