import Verif.Children.Self
/-!
# What a supervisor waits for

While it has an init request it waits for a child that has not been found initialized; while it shuts down, for a child that lives.
-/

namespace Verif.Children
open Verif

variable {c : Conf} {φ : Fl}

theorem Base.congr {φ' : Fl} {σ : State} (h : Base φ σ) (e : φ'.nc = φ.nc) : Base φ' σ := fun a =>
  let v := h a
  ⟨v.cl, v.fin, fun hn => v.dead (by rw [← e]; exact hn), v.ri, v.spawn, v.timer, v.out⟩

/-! ## initialization -/

/-- a child that has not been found initialized -/
def View.w (v : View) : Prop := ∃ r, v.r = some r ∧ r.act = true ∧ r.initialized = false

theorem View.hi.w {v : View} (h : v.hi) : v.w := by
  obtain ⟨r, h1, h2, _, h3⟩ := h
  exact ⟨r, h1, h2, h3⟩

theorem w_step {v w : View} (hk : φ.nk = true) (hj : φ.nj = true) (h0 : A c v) (h : v.w) (st : VStep c φ v w) : w.w := by
  obtain ⟨r, h1, h2, h3⟩ := h
  have a1 := h0.spawn
  have a2 := h0.timer
  cases st <;> (try exact ⟨r, h1, h2, h3⟩) <;> simp only [View.w] <;> grind [Blank]

theorem w_steps {v w : View} (hk : φ.nk = true) (hj : φ.nj = true) (h0 : A c v) (h : v.w) (st : VSteps c φ v w) : w.w := by
  have := VSteps.keeps (P := fun v => A c v ∧ v.w) (fun v w hv st => ⟨hv.1.step st, w_step hk hj hv.1 hv.2 st⟩) st ⟨h0, h⟩
  exact this.2

/-- while it has an init request, the supervisor waits for a child -/
def Wait (σ : State) : Prop := σ.st = .initializing → σ.initReq = true → ∃ a, (view σ a).w

/-- nothing of what the supervisor knows of itself goes back to the initialization -/
theorem sv_back {v w : SV} (st : SSteps c ⟨true, false, false⟩ v w) : w.st = .initializing → w.req = true → v.st = .initializing ∧ v.req = true := by
  intro h1 h2
  have := SSteps.keeps (P := fun x => x.st = .initializing → x.req = true → v.st = .initializing ∧ v.req = true) (fun x y hx st => by
    cases st <;> grind) st (fun a b => ⟨a, b⟩)
  exact this h1 h2

theorem wait_aic {o : Ora} {σ σ' : State} (e : actorInitContinue c o σ = .ok σ') (hn : o.next = true) (hd : ND σ) : Wait σ' := by
  unfold actorInitContinue at e
  split at e
  · split at e
    · rename_i h
      injection e with e; subst e
      intro _ _
      obtain ⟨a, ha⟩ := hasInit_true hd h.2
      exact ⟨a, ha.w⟩
    · simp only [hn, if_true] at e
      injection e with e; subst e
      intro h _
      simp [initFinish] at h
  · simp at e

theorem wait_ic {o : Ora} {σ σ' : State} (e : initContinue c o σ = .ok σ') (hn : o.next = true) (hd : ND σ) : Wait σ' := by
  unfold initContinue at e
  split at e
  · exact wait_aic e hn hd
  · rename_i h
    injection e with e; subst e
    intro h1 h2
    have : hasInit σ = true := by
      cases hh : hasInit σ with
      | true => rfl
      | false => exact absurd ⟨h1, h2, hh⟩ h
    obtain ⟨a, ha⟩ := hasInit_true hd this
    exact ⟨a, ha.w⟩

theorem nd_removed {a : Nat} {r : Rec} {o : Ora} {σ : State} (h : ND σ) : ND (removeRec a r o (cancelInit a (removePolicy c r σ))) :=
  nd_removeRec (nd_of h (by rw [cancelInit_recs, (removePolicy_same r σ).1]))

theorem wait_removeChild {a : Nat} {o : Ora} {σ σ' : State} (e : removeChild c a o σ = .ok σ') (hn : o.next = true) (hd : ND σ) : Wait σ' := by
  obtain ⟨r, hr, ha, e⟩ := removeChild_eq e
  have h1 := nd_removed (c := c) (a := a) (r := r) (o := o) hd
  unfold removeEnd at e
  split at e
  · split at e
    · simp at e
    · rename_i σ2 e2
      exact wait_ic e hn (nd_shutdownContinue e2 h1)
  · exact wait_ic e hn h1

theorem wait_continueIf {o : Ora} {σ σ' : State} (e : continueIf o σ = .ok σ') (h : Wait σ) : Wait σ' := by
  unfold continueIf at e
  split at e
  · rename_i hs
    intro h1
    have := (shutdownContinue_st e).2
    rw [this] at h1
    simp at h1
  · injection e with e; subst e; exact h

theorem wait_onInitOk {a : Nat} {o : Ora} {σ σ' : State} (e : onInitOk c a o σ = .ok σ') (hn : o.next = true) (hd : ND σ)
    (h3 : 3 ≤ (σ.kid a).st.rank) : Wait σ' := by
  rw [onInitOk_eq] at e
  have hd1 : ND (okRecs c a σ) := by
    unfold okRecs
    split
    · exact hd
    · split <;> exact nd_set hd rfl
  split at e
  · rename_i hh
    injection e with e; subst e
    intro _ _
    obtain ⟨b, r, hb⟩ := hasInit_true hd hh
    refine ⟨b, r, ?_, hb.2.1, hb.2.2.2⟩
    have hne : b ≠ a := by
      intro e; subst e
      have := hb.2.2.1
      simp only [view] at this
      omega
    have := hb.1
    simp only [view] at this ⊢
    unfold okRecs
    split
    · exact this
    · split <;> simp [State.setRec, AMap.find_set, Ne.symm hne, hne, this]
  · exact wait_ic e hn hd1

/-- as `wait_step`, for operations that neither remove a child nor find one initialized nor bring the init request -/
theorem wait_still {op : Op} {σ σ' : State} (hr : Reach c φ σ) (e : step c σ op = .ok σ') (ha : Adm { φ with nk := true, nj := true } σ op)
    (hq : NoReq σ op) (h : Wait σ) : Wait σ' := by
  intro h1 h2
  obtain ⟨g1, g2⟩ := sv_back (ss_step (nr := ⟨true, false, false⟩) e (fun _ => hq) (by simp) (by simp)) h1 h2
  obtain ⟨b, hb⟩ := h g1 g2
  have := (sim_step (φ := { φ with nk := true, nj := true }) e hr.base.1 (hr.base.2.congr rfl) ha).1 b
  exact ⟨b, w_steps rfl rfl (hr.inv b).a hb this⟩

theorem mem_qOf {σ : State} {a : Nat} {m : KM} {t : List SMsg} (h : σ.q = .kid a m :: t) : m ∈ (view σ a).s := by
  simp [view, h, qOf_cons, msgOf]

theorem adm_still {op : Op} {σ : State} (ha : Adm φ σ op) (h : ∀ o m t, op = .recv o → σ.q = m :: t → removes o m = false ∧ ∀ a, m ≠ .kid a (.initRes true)) :
    Adm { φ with nk := true, nj := true } σ op := by
  cases op with
  | recv o =>
    obtain ⟨h1, h2, h3, h4, h5⟩ := ha
    refine ⟨h1, h2, h3, fun m t hq => ⟨⟨fun _ => ?_, fun _ => ?_⟩, (h4 m t hq).2⟩, h5⟩
    · exact (h o m t rfl hq).1
    · exact (h o m t rfl hq).2
  | _ => exact ha

theorem wait_step {op : Op} {σ σ' : State} (hw : φ.wn = true) (hr : Reach c φ σ) (ha : Adm φ σ op) (e : step c σ op = .ok σ') (h : Wait σ) :
    Wait σ' := by
  have hd := hr.nd
  cases op with
  | recv o =>
    have hn : o.next = true := ha.2.1 hw
    cases hq : σ.q with
    | nil =>
      simp only [step, hq] at e
      injection e with e; subst e; exact h
    | cons m t =>
      have e0 := e
      simp only [step, hq] at e
      split at e
      · rename_i h6
        injection e with e; subst e
        intro g; rw [h6] at g; simp at g
      · by_cases hm : removes o m = false ∧ ∀ a, m ≠ .kid a (.initRes true)
        · by_cases hi : m = .initReqSelf
          · subst hi
            simp only [handle, onInitReq] at e
            split at e
            · exact wait_aic e hn hd
            · rename_i hs
              injection e with e; subst e
              intro g; exact absurd g hs
          · refine wait_still hr e0 (adm_still ha ?_) ?_ h
            · intro o' m' t' eo eq
              injection eo with eo; subst eo
              rw [hq] at eq; injection eq with e1 e2; subst e1; exact hm
            · intro t' eq
              rw [hq] at eq; injection eq with e1 e2; exact hi e1
        · cases m with
          | kid a m =>
            simp only [handle] at e
            cases m with
            | initRes ok =>
              cases ok with
              | false => simp [removes] at hm
              | true =>
                have h3 := ((hr.inv a).b.ok3 (.inl (mem_qOf hq))).1
                simp only [onKid] at e
                split at e
                · exact wait_onInitOk e hn hd h3
                · injection e with e; subst e
                  intro g1 g2
                  exact h g1 g2
            | shutRes =>
              simp only [onKid] at e
              split at e
              · simp only [onShutRes] at e
                split at e
                · simp at e
                · split at e
                  · split at e
                    · rename_i hl; simp [removes, hl] at hm
                    · split at e
                      · simp at e
                      · rename_i σ2 e2
                        exact wait_continueIf e (wait_removeChild e2 hn (nd_set hd rfl))
                  · simp at e
              · injection e with e; subst e
                intro g1 g2
                exact h g1 g2
            | unsub => exact wait_removeChild e hn hd
            | create => simp [removes] at hm
            | spawn => simp [removes] at hm
            | initErr => simp [removes] at hm
            | trigger => simp [removes] at hm
          | _ => simp [removes] at hm
  | pInit o =>
    simp only [step] at e
    split at e
    · simp only [onInitReq] at e
      split at e
      · exact wait_aic e (ha.2 hw) hd
      · rename_i hs
        injection e with e; subst e
        intro g; exact absurd g hs
    · simp at e
  | _ =>
    refine wait_still hr e (adm_still ha ?_) ?_ h
    · intro o m t eo; simp at eo
    · trivial

theorem Reach.wait {σ : State} (hw : φ.wn = true) (h : Reach c φ σ) : Wait σ := by
  induction h with
  | init => intro _ h; simp [State.init] at h
  | step op hr ha he ih => exact wait_step hw hr ha he ih

/-! ## shutdown -/

/-- a record that has been asked -/
def View.k1 (v : View) : Prop := 5 ≤ v.st.rank → ∀ r, v.r = some r → (r.act = true → r.shut ≠ .none) ∧ r.info.timer = false

theorem k1_step {v w : View} (hs : φ.ns = true) (hn : φ.nd = true) (h : v.k1) (st : VStep c φ v w) : w.k1 := by
  cases st <;> (try exact h) <;> simp only [View.k1, Rem, View.may] at * <;> grind [Blank, AState.rank]

theorem k1_steps {v w : View} (hs : φ.ns = true) (hn : φ.nd = true) (h : v.k1) (st : VSteps c φ v w) : w.k1 :=
  VSteps.keeps (fun _ _ hv st => k1_step hs hn hv st) st h

/-- a message is on the way to the spawner, if there is neither an instance nor a timer -/
def View.sp (v : View) : Prop := ∀ r, v.r = some r → r.act = false → r.info.active = true → r.info.timer = false → .spawn ∈ v.s

theorem sp_step {v w : View} (hs : φ.ns = true) (hc : φ.nc = true) (h0 : Inv c φ v) (h : v.sp) (st : VStep c φ v w) : w.sp := by
  have v1 := h0.vb.dead hc
  have v2 := h0.vb.fin
  have a1 := h0.a.spawn
  have a2 := h0.s.sp1
  have a3 := h0.a.actb
  have a4 := h0.a.unbs
  have e1 : ∀ m, m ∈ v.s → m ≠ .spawn → v.k.born = true := fun m hm hne => by
    cases hb : v.k.born with
    | true => rfl
    | false => exact absurd (a4 hb _ hm) hne
  cases st <;> (try exact h) <;> simp only [View.sp, Rem, View.may, Rec.dead, Rec.unused] at * <;> grind [Blank, AState.rank]

theorem Reach.sp {σ : State} (hs : φ.ns = true) (hc : φ.nc = true) (h : Reach c φ σ) (a : Nat) : (view σ a).sp := by
  have := h.keeps (P := fun v => Inv c φ v ∧ v.sp) a ?_ (fun v w hv st => ⟨hv.1.step st, sp_step hs hc hv.1 hv.2 st⟩)
  · exact this.2
  · refine ⟨Reach.inv .init a, ?_⟩
    rw [view_init]
    intro r hr; simp at hr

theorem k1_askAll (σ : State) (a : Nat) (ht : ∀ r, σ.recs.find a = some r → r.info.timer = true → r.act = false) : (view (askAll σ) a).k1 := by
  intro _ r hr
  have hr' : (askAll σ).recs.find a = some r := hr
  rw [find_askAll] at hr'
  cases hx : σ.recs.find a with
  | none => rw [hx] at hr'; simp at hr'
  | some x =>
    rw [hx] at hr'
    simp at hr'
    subst hr'
    have := ht x hx
    unfold askRec
    split
    · rename_i hact
      have hx : x.info.timer = false := by
        cases hxt : x.info.timer with
        | false => rfl
        | true => have := this hxt; rw [hact] at this; simp at this
      split
      · exact ⟨fun _ => by simp, hx⟩
      · rename_i hsn
        exact ⟨fun _ => hsn, hx⟩
    · rename_i hact
      split
      · exact ⟨fun h => absurd h hact, rfl⟩
      · rename_i hxt
        exact ⟨fun h => absurd h hact, by simpa using hxt⟩

def K1 (σ : State) : Prop := ∀ a, (view σ a).k1

/-- the child manager has agreed, or something lives -/
def K2 (σ : State) : Prop := σ.st = .shuttingDown → σ.closed = true ∨ ∃ a, (view σ a).liv

theorem post_shutdownContinue {o : Ora} {σ σ' : State} (e : shutdownContinue o σ = .ok σ') (ha : o.agree = true) (hd : ND σ)
    (hb : ∀ a r, σ.recs.find a = some r → r.info.timer = true → r.act = false) : (σ.closed = false → K1 σ') ∧ K2 σ' := by
  unfold shutdownContinue at e
  split at e
  · split at e
    · rename_i hc
      injection e with e; subst e
      exact ⟨fun h => by rw [hc] at h; simp at h, fun _ => .inl hc⟩
    · injection e with e; subst e
      have k1 : ∀ a, (view (askAll { σ with selfShut := .confirmed }) a).k1 := fun a => k1_askAll _ a (fun r hr => hb a r hr)
      unfold handleShutdown
      simp only
      split
      · rename_i ho
        refine ⟨fun _ => k1, fun _ => .inr (othersAlive_true ?_ ho)⟩
        exact nd_askAll (σ := { σ with selfShut := .confirmed }) hd
      · exact ⟨fun _ => k1, fun _ => .inl rfl⟩
  · simp at e

theorem liv_step {v w : View} (hs : φ.ns = true) (hk : φ.nk = true) (hn : φ.nd = true) (h1 : v.k1) (h5 : 5 ≤ v.st.rank) (h0 : Inv c φ v)
    (h : v.cl = true ∨ v.liv) (st : VStep c φ v w) : w.cl = true ∨ w.liv := by
  have h1 := h1 h5
  have a1 := h0.a.actb
  cases st <;> (try exact h) <;> simp only [View.liv, View.may, Rec.dead] at * <;> grind [Blank, AState.rank]

theorem st_up {v w : View} (h5 : 5 ≤ v.st.rank) (st : VStep c φ v w) : 5 ≤ w.st.rank := by
  cases st <;> (try exact h5) <;> grind [AState.rank]

theorem st_down {v w : View} (hn : φ.nd = true) (st : VSteps c φ v w) (h5 : 5 ≤ w.st.rank) : 5 ≤ v.st.rank := by
  have := VSteps.keeps (P := fun x => 5 ≤ x.st.rank → 5 ≤ v.st.rank) (fun x y hx st => by
    cases st <;> (try exact hx) <;> grind [AState.rank]) st (fun x => x)
  exact this h5

theorem liv_steps {v w : View} (hs : φ.ns = true) (hk : φ.nk = true) (hn : φ.nd = true) (h1 : v.k1) (h5 : 5 ≤ v.st.rank) (h0 : Inv c φ v)
    (h : v.cl = true ∨ v.liv) (st : VSteps c φ v w) : w.cl = true ∨ w.liv := by
  have := VSteps.keeps (P := fun v => v.k1 ∧ 5 ≤ v.st.rank ∧ Inv c φ v ∧ (v.cl = true ∨ v.liv)) (fun v w hv st =>
    ⟨k1_step hs hn hv.1 st, st_up hv.2.1 st, hv.2.2.1.step st, liv_step hs hk hn hv.1 hv.2.1 hv.2.2.1 hv.2.2.2 st⟩) st ⟨h1, h5, h0, h⟩
  exact this.2.2.2

theorem Inv.congr {φ' : Fl} {v : View} (h : Inv c φ v) (e : φ'.nc = φ.nc) : Inv c φ' v :=
  let u := h.vb
  ⟨⟨u.cl, u.fin, fun hn => u.dead (by rw [← e]; exact hn), u.ri, u.spawn, u.timer, u.out⟩, h.a, h.b, h.s, h.l⟩

/-- does the shutdown begin with this operation? -/
def begins (σ : State) : Op → Prop
  | .pShut _ => True
  | .recv _ => ∃ t, σ.q = .trigSelf :: t
  | _ => False

theorem adm_nd {op : Op} {σ : State} (ha : Adm φ σ op) (h : ¬ begins σ op) : Adm { φ with nd := true } σ op := by
  cases op with
  | recv o =>
    obtain ⟨h1, h2, h3, h4, h5⟩ := ha
    refine ⟨h1, h2, h3, fun m t hq => ⟨(h4 m t hq).1, fun _ e => h ⟨t, by rw [hq, e]⟩⟩, h5⟩
  | pShut o => exact (h trivial).elim
  | _ => exact ha

theorem adm_nk {op : Op} {σ : State} (ha : Adm φ σ op) (h : ∀ o m t, op = .recv o → σ.q = m :: t → removes o m = false) :
    Adm { φ with nk := true } σ op := by
  cases op with
  | recv o =>
    obtain ⟨h1, h2, h3, h4, h5⟩ := ha
    refine ⟨h1, h2, h3, fun m t hq => ⟨⟨fun _ => h o m t rfl hq, (h4 m t hq).1.2⟩, (h4 m t hq).2⟩, h5⟩
  | _ => exact ha

def K (σ : State) : Prop := K1 σ ∧ K2 σ

theorem k_of_view {σ σ' : State} (h : K σ) (e : ∀ a, view σ' a = view σ a) : K σ' := by
  refine ⟨fun a => by rw [e]; exact h.1 a, fun hs => ?_⟩
  have h1 : σ'.st = σ.st := congrArg View.st (e 0)
  have h2 : σ'.closed = σ.closed := congrArg View.cl (e 0)
  rw [h1] at hs
  rw [h2]
  rcases h.2 hs with h | ⟨a, h⟩
  · exact .inl h
  · exact .inr ⟨a, by rw [e]; exact h⟩

theorem view_pop_self {m : SMsg} {t : List SMsg} {σ : State} (hq : σ.q = m :: t) (hm : ∀ a, msgOf a m = none) (a : Nat) :
    view { σ with q := t } a = view σ a := by
  have := view_push_other hm { σ with q := t } a
  rw [← push_eq hq] at this
  exact this.symm

theorem k_begins {op : Op} {σ σ' : State} (hw : φ.wa = true) (hr : Reach c φ σ) (ha : Adm φ σ op) (hb : begins σ op)
    (e : step c σ op = .ok σ') (h : K σ) : K σ' := by
  have hd := hr.nd
  have hB := hr.base.2
  cases op with
  | pShut o =>
    simp only [step] at e
    split at e
    · rename_i hp
      have hcl : (startShutdown σ).closed = false := by
        cases hc : σ.closed with
        | false => exact hc
        | true =>
          have h5 : 5 ≤ σ.st.rank := (hB 0).cl hc
          have : σ.st.rank < 5 := hp.2
          omega
      have hB1 : Base { φ with nd := false } (startShutdown σ) := (hB.congr (φ' := { φ with nd := false }) rfl).sim (c := c) (sim_down rfl hp.2)
      have := post_shutdownContinue e (ha.2 hw) hd (fun a => (hB1 a).timer)
      exact ⟨this.1 hcl, this.2⟩
    · simp at e
  | recv o =>
    obtain ⟨t, hq⟩ := hb
    have hag : o.agree = true := ha.2.2.1 hw
    have e0 := view_pop_self hq (fun _ => rfl)
    simp only [step, hq] at e
    split at e
    · injection e with e; subst e
      exact k_of_view h e0
    · rename_i h6
      simp only [handle, onTrigSelf] at e
      split at e
      · split at e
        · split at e
          · injection e with e; subst e
            exact k_of_view h e0
          · rename_i h5
            split at e
            · simp at e
            · rename_i σ2 e2
              injection e with e; subst e
              have hlt : σ.st.rank < 5 := rank_lt h5 h6
              have hcl : σ.closed = false := by
                cases hc : σ.closed with
                | false => rfl
                | true =>
                  have h5 : 5 ≤ σ.st.rank := (hB 0).cl hc
                  omega
              have key : ∀ τ : State, ND τ → (∀ a, view τ a = view σ a) → shutdownContinue o (askAll (startShutdown τ)) = .ok σ2 → K σ2 := by
                intro τ hτ ev e2
                have hB0 : Base { φ with nd := false } τ := fun a => by
                  rw [ev]; exact hB.congr (φ' := { φ with nd := false }) rfl a
                have hst : τ.st.rank < 5 := by
                  have : τ.st = σ.st := congrArg View.st (ev 0)
                  rw [this]; exact hlt
                have hB1 : Base { φ with nd := false } (askAll (startShutdown τ)) :=
                  (hB0.sim (c := c) (sim_down rfl hst)).sim (c := c) (sim_askAll rfl)
                have hc1 : (askAll (startShutdown τ)).closed = false := by
                  have : τ.closed = σ.closed := congrArg View.cl (ev 0)
                  show τ.closed = false
                  rw [this]; exact hcl
                have := post_shutdownContinue e2 hag (nd_askAll (σ := startShutdown τ) hτ) (fun a => (hB1 a).timer)
                exact ⟨this.1 hc1, this.2⟩
              exact k_of_view (key _ (by exact hd) (fun a => by rw [← e0 a]; rfl) e2) (fun _ => rfl)
        · injection e with e; subst e
          have hx : K (doShutdownSelf c { σ with q := t }) := by
            refine ⟨fun a => ?_, fun hs => ?_⟩
            · rw [view_doShutdownSelf]
              have := h.1 a
              rw [← e0 a] at this
              split <;> exact this
            · rw [(doShutdownSelf_same _).1] at hs
              rcases h.2 hs with h | ⟨a, h⟩
              · left
                have := congrArg View.cl (view_doShutdownSelf (c := c) { σ with q := t } 0)
                have e2 : (view (doShutdownSelf c { σ with q := t }) 0).cl = σ.closed := by rw [this]; split <;> rfl
                have e3 : (doShutdownSelf c { σ with q := t }).closed = σ.closed := e2
                rw [e3]; exact h
              · right
                refine ⟨a, ?_⟩
                rw [view_doShutdownSelf]
                rw [← e0 a] at h
                split <;> exact h
          exact k_of_view hx (fun _ => rfl)
      · injection e with e; subst e
        exact k_of_view h e0
  | _ => exact hb.elim

theorem k2_ic {o : Ora} {σ σ' : State} (e : initContinue c o σ = .ok σ') (h : K2 σ) : K2 σ' := by
  unfold initContinue at e
  split at e
  · rename_i hi
    intro hs
    unfold actorInitContinue at e
    split at e
    · split at e
      · injection e with e; subst e
        have : σ.st = .shuttingDown := hs
        rw [hi.1] at this; simp at this
      · simp only at e
        have e1 := (createN_st o.now o.late { { σ with rInit := false } with rInit := false }).1
        split at e
        · injection e with e; subst e; simp [initFinish] at hs
        · injection e with e; subst e
          rw [e1] at hs
          have : σ.st = .shuttingDown := hs
          rw [hi.1] at this; simp at this
    · simp at e
  · injection e with e; subst e; exact h

theorem k2_shutdownContinue {o : Ora} {σ σ' : State} (e : shutdownContinue o σ = .ok σ') (ha : o.agree = true) (hd : ND σ) : K2 σ' := by
  unfold shutdownContinue at e
  split at e
  · split at e
    · rename_i hc
      injection e with e; subst e
      exact fun _ => .inl hc
    · injection e with e; subst e
      unfold handleShutdown
      simp only
      split
      · rename_i ho
        refine fun _ => .inr (othersAlive_true ?_ ho)
        exact nd_askAll (σ := { σ with selfShut := .confirmed }) hd
      · exact fun _ => .inl rfl
  · simp at e

theorem k2_removeChild {a : Nat} {o : Ora} {σ σ' : State} (e : removeChild c a o σ = .ok σ') (hag : o.agree = true) (hd : ND σ) : K2 σ' := by
  obtain ⟨r, hr, ha, e⟩ := removeChild_eq e
  have h1 := nd_removed (c := c) (a := a) (r := r) (o := o) hd
  unfold removeEnd at e
  split at e
  · split at e
    · simp at e
    · rename_i σ2 e2
      exact k2_ic e (k2_shutdownContinue e2 hag h1)
  · rename_i hn
    refine k2_ic e (fun hs => .inr (othersAlive_true h1 ?_))
    cases ho : othersAlive (removeRec a r o (cancelInit a (removePolicy c r σ))) with
    | true => rfl
    | false => exact absurd ⟨hs, ho⟩ hn

theorem k2_continueIf {o : Ora} {σ σ' : State} (e : continueIf o σ = .ok σ') (hag : o.agree = true) (hd : ND σ) (h : K2 σ) : K2 σ' := by
  unfold continueIf at e
  split at e
  · exact k2_shutdownContinue e hag hd
  · injection e with e; subst e; exact h

/-- as `k_step`, for operations that remove no child and do not begin the shutdown -/
theorem k2_still {op : Op} {σ σ' : State} (hs : φ.ns = true) (hr : Reach c φ σ) (e : step c σ op = .ok σ')
    (ha : Adm { φ with nk := true, nd := true } σ op) (h : K σ) : K2 σ' := by
  intro g
  have hsim := (sim_step (φ := { φ with nk := true, nd := true }) e hr.base.1 (hr.base.2.congr rfl) ha).1
  have g5 : 5 ≤ (view σ' 0).st.rank := by simp [view, g, AState.rank]
  have f5 : 5 ≤ σ.st.rank := st_down rfl (hsim 0) g5
  have f6 : σ.st = .shuttingDown := by
    have := VSteps.keeps (P := fun x => x.st = .shutDown ∨ (view σ 0).st ≠ .shutDown) (fun x y hx st => by
      cases st <;> (try exact hx) <;> grind) (hsim 0) (by
        by_cases hh : (view σ 0).st = .shutDown
        · exact .inl hh
        · exact .inr hh)
    have hne : σ.st ≠ .shutDown := by
      rcases this with this | this
      · have : σ'.st = .shutDown := this
        rw [g] at this; simp at this
      · exact this
    cases hst : σ.st <;> simp_all [AState.rank]
  have key : ∀ b, ((view σ b).cl = true ∨ (view σ b).liv) → (view σ' b).cl = true ∨ (view σ' b).liv := fun b hb =>
    liv_steps (φ := { φ with nk := true, nd := true }) hs rfl rfl (h.1 b) f5 ((hr.inv b).congr rfl) hb (hsim b)
  rcases h.2 f6 with h | ⟨b, h⟩
  · rcases key 0 (.inl h) with k | k
    · exact .inl k
    · exact .inr ⟨0, k⟩
  · rcases key b (.inr h) with k | k
    · exact .inl k
    · exact .inr ⟨b, k⟩

theorem k_step {op : Op} {σ σ' : State} (hw : φ.wa = true) (hs : φ.ns = true) (hr : Reach c φ σ) (ha : Adm φ σ op) (e : step c σ op = .ok σ')
    (h : K σ) : K σ' := by
  by_cases hb : begins σ op
  · exact k_begins hw hr ha hb e h
  · have hA := adm_nd ha hb
    refine ⟨fun b => ?_, ?_⟩
    · have := (sim_step (φ := { φ with nd := true }) e hr.base.1 (hr.base.2.congr rfl) hA).1 b
      exact k1_steps (φ := { φ with nd := true }) hs rfl (h.1 b) this
    · have hd := hr.nd
      by_cases hrem : ∀ o m t, op = .recv o → σ.q = m :: t → removes o m = false
      · exact k2_still hs hr e (adm_nk hA hrem) h
      · cases op with
        | recv o =>
          have hag : o.agree = true := ha.2.2.1 hw
          cases hq : σ.q with
          | nil => exact absurd (fun o m t _ eq => by rw [hq] at eq; simp at eq) hrem
          | cons m t =>
            have hm : removes o m = true := by
              cases hm : removes o m with
              | true => rfl
              | false =>
                refine absurd (fun o' m' t' eo eq => ?_) hrem
                injection eo with eo; subst eo
                rw [hq] at eq; injection eq with e1 e2; subst e1; exact hm
            simp only [step, hq] at e
            split at e
            · rename_i h6
              injection e with e; subst e
              intro g; rw [h6] at g; simp at g
            · cases m with
              | kid a m =>
                simp only [handle] at e
                cases m with
                | shutRes =>
                  have hl : o.later = false := by simpa [removes] using hm
                  simp only [onKid] at e
                  split at e
                  · simp only [onShutRes, hl] at e
                    split at e
                    · simp at e
                    · split at e
                      · simp only [Bool.false_eq_true, if_false] at e
                        split at e
                        · simp at e
                        · rename_i σ2 e2
                          have hd1 : ND (State.setRec { σ with q := t, sA := upd σ.sA a false } a { ‹Rec› with shut := .confirmed }) := nd_set hd rfl
                          exact k2_continueIf e hag (nd_removeChild e2 hd1) (k2_removeChild e2 hag hd1)
                      · simp at e
                  · injection e with e; subst e
                    intro g
                    rcases h.2 g with h | ⟨b, h⟩
                    · exact .inl h
                    · exact .inr ⟨b, h⟩
                | unsub => exact k2_removeChild e hag hd
                | _ => simp [removes] at hm
              | _ => simp [removes] at hm
        | _ => exact absurd (fun o m t eo => by simp at eo) hrem

theorem Reach.k {σ : State} (hw : φ.wa = true) (hs : φ.ns = true) (h : Reach c φ σ) : K σ := by
  induction h with
  | init =>
    refine ⟨fun a => ?_, fun h => ?_⟩
    · rw [view_init]; intro h; simp [AState.rank] at h
    · simp [State.init] at h
  | step op hr ha he ih => exact k_step hw hs hr ha he ih

end Verif.Children
