import Verif.Children.Fin
import Verif.Children.Spec
/-!
# Properties of a supervisor and its children

`Reach c φ σ`: an execution the flags `φ` allow (`Verif.Children.View`) reaches `σ`; a theorem that says nothing about `φ` holds for all
executions.
-/

namespace Verif.Children
open Verif

variable {c : Conf} {φ : Fl} {σ σ' : State}

theorem Quiet.s (h : Quiet σ) (a : Nat) : (view σ a).s = [] := by simp [view, h.q, qOf]
theorem Quiet.t (h : Quiet σ) (a : Nat) : (view σ a).t = [] := h.to a
theorem Quiet.o (h : Quiet σ) (a : Nat) : (view σ a).o = [] := h.out a

theorem sf_iff (σ : State) (a : Nat) : (view σ a).sf = true ↔ Failing σ := by simp [view, sfOf, Failing]

/-- a child that has been asked is shutting down, if no message is on its way -/
theorem asked_dying (hr : Reach c φ σ) (hq : Quiet σ) (hc : σ.closed = false) {a : Nat} {r : Rec} (h : σ.recs.find a = some r)
    (ha : r.act = true) (hs : r.shut ≠ .none) : (σ.kid a).st = .shuttingDown := by
  have := (hr.inv a).l.l3 hc r h ha hs
  rw [hq.s, hq.t, hq.o] at this
  simp only [List.not_mem_nil, false_or, or_false] at this
  exact this

/-- the record of a living child -/
theorem living_rec (hr : Reach c φ σ) {a : Nat} (h : Living σ a) : ∃ r, σ.recs.find a = some r ∧ r.act = true :=
  (hr.inv a).a.alive h.1 (.inl h.2)

/-! ## C34: a supervisor is initialized only after its children -/

/-- when the supervisor answers its init request with success, every child created before is past its initialization -/
theorem C34_confirms {op : Op} (hr : Reach c φ σ) (he : step c σ op = .ok σ') (hf : σ'.initOks ≠ σ.initOks) (a : Nat)
    (hb : (σ.kid a).born = true) : Past σ' a := by
  have hr' : Reach c .any σ' := .step op hr.any (adm_any _ op) he
  have hlt : a < σ.nx := fresh_born hr.base.1 hb
  have hno := fin_step he hr.base.2 hf a hlt
  have hb' : (σ'.kid a).born = true := by
    have := VSteps.keeps (P := fun v : View => v.k.born = true) (fun v w hv st => by
      cases st <;> (try exact hv) <;> grind [Kid.new]) ((sim_step he hr.any.base.1 hr.any.base.2 (adm_any _ op)).1 a) hb
    exact this
  have hi := hr'.inv a
  unfold Past
  have e3 : AState.initialized.rank = 3 := rfl
  rw [e3]
  by_cases h6 : (σ'.kid a).st = .shutDown
  · rw [h6]; simp [AState.rank]
  · obtain ⟨r, h1, h2⟩ := living_rec hr' ⟨hb', h6⟩
    refine Nat.lt_of_not_le (fun h3 => hno ⟨r, h1, h2, h3, ?_⟩)
    cases hin : r.initialized with
    | false => rfl
    | true =>
      have := (hi.b.ini3 r h1 h2 hin).1
      simp only [view] at this
      omega

/-- it answers at most once -/
theorem C34_once (hr : Reach c φ σ) : σ.initOks + σ.initFails ≤ 1 := hr.r.one

/-- and it is INITIALIZED or OPERATIONAL only after it has answered so -/
theorem C34_state (hr : Reach c φ σ) (h : σ.st = .initialized ∨ σ.st = .operational) : σ.initOks = 1 := hr.r.ok3 h

/-- if the other plugins agree, a supervisor that has not answered waits for a child: one that has not answered its init request or is
shutting down; unless it has been told to shut down -/
theorem C34_waits (hw : φ.wn = true) (hr : Reach c φ σ) (hq : Quiet σ) (hs : σ.st = .initializing) (hi : σ.initReq = true) :
    (∃ a, Busy σ a ∨ (σ.kid a).st = .shuttingDown) ∨ 0 < σ.wants := by
  obtain ⟨a, r, h1, h2, h3⟩ := hr.wait hw hs hi
  have hc : σ.closed = false := hr.base.2.open hs
  have hv := hr.inv a
  have hl := hv.l.l1 hc r h1 h2 h3
  rw [hq.s, hq.o] at hl
  simp only [List.not_mem_nil, false_or] at hl
  rcases hl with hl | hl | hl
  · have h4 := hv.l.l2 hc hl
    rw [hq.s, hq.o, hq.t] at h4
    simp only [List.not_mem_nil, false_or, exists_false] at h4
    rcases h4 with h4 | h4
    · exact .inl ⟨a, .inl ⟨h4.2.2, h4.1, h4.2.1⟩⟩
    · refine .inl ⟨a, .inr (asked_dying hr hq hc h1 h2 ?_)⟩
      intro hn
      have := (hv.a.ns0 (hv.a.nn r h1 h2 hn)).1
      omega
  · exact .inl ⟨a, .inr (asked_dying hr hq hc h1 h2 hl)⟩
  · rw [sf_iff] at hl
    rcases hl with hl | hl
    · have h0 : σ.initOks + σ.initFails = 0 := hr.r.req hi
      omega
    · exact .inr hl

/-- so a root supervisor that is still initializing waits for a child -/
theorem C34_root (hc : c.root = true) (hw : φ.wn = true) (hr : Reach c φ σ) (hq : Quiet σ) (hs : σ.st = .initializing) :
    ∃ a, Busy σ a ∨ (σ.kid a).st = .shuttingDown := by
  have hR := hr.r
  have hq0 : (sview σ).q = [] := by simp [sview, hq.q]
  have h2 := hR.r2 hc
  have h4 := hR.r4 hc hs
  rw [hq0] at h2 h4
  have hst : ¬ 5 ≤ (sview σ).st.rank := by simp [sview, hs, AState.rank]
  simp only [List.not_mem_nil, false_or, false_and, or_false] at h2 h4
  have hnf : ¬ (0 < (sview σ).fails ∨ 0 < (sview σ).wants) := fun h => hst (h2 h)
  rcases h4 with h4 | h4
  · rcases C34_waits hw hr hq hs h4 with h | h
    · exact h
    · exact absurd (.inr h) hnf
  · exact absurd (.inl h4) hnf

/-! ## C35: a supervisor is shut down only after its children -/

/-- the shutdown of a supervisor is complete only after that of all its children; no child is created after the child manager has agreed
(`nc`) -/
theorem C35_last (hc : φ.nc = true) (hr : Reach c φ σ) (hs : σ.closed = true ∨ σ.st = .shutDown) (a : Nat) : ¬ Living σ a := by
  intro h
  obtain ⟨r, h1, h2⟩ := living_rec hr h
  have hcl : σ.closed = true := by
    rcases hs with hs | hs
    · exact hs
    · exact (hr.base.2 0).fin hs
  have := ((hr.base.2 a).dead hc hcl r h1).1
  rw [h2] at this; simp at this

/-- a supervisor that is shutting down has asked every living child, exactly once; none is created or restarted meanwhile (`ns`), and the
plugins behind the child manager agree at once (`wa`) -/
theorem C35_asks (hc : φ.nc = true) (hn : φ.ns = true) (hw : φ.wa = true) (hr : Reach c φ σ) (hs : AState.shuttingDown.rank ≤ σ.st.rank)
    {a : Nat} (h : Living σ a) : σ.nShut a = 1 := by
  obtain ⟨r, h1, h2⟩ := living_rec hr h
  have hcl : σ.closed = false := by
    cases hcl : σ.closed with
    | false => rfl
    | true => exact absurd h (C35_last hc hr (.inl hcl) a)
  have hk := ((hr.k hw hn).1 a hs r h1).1 h2
  have h3 := (hr.inv a).l.l3 hcl r h1 h2 hk
  have ht := (hr.inv a).a.tok
  have h4 := (hr.inv a).a.ns1
  have e1 := @count1 Dn _ _ .shutReq (view σ a).t
  have e2 := @count1 KM _ _ .shutRes (view σ a).s
  have e3 := @count1 KM _ _ .shutRes (view σ a).o
  have e4 := @count1 KM _ _ .unsub (view σ a).s
  have h5 : 1 ≤ (view σ a).nS := by
    rcases h3 with h3 | h3 | h3 | h3 | h3
    · have := e1 h3; omega
    · have : dying (view σ a).k = 1 := by simp [dying, h3]
      omega
    · have := e2 h3; omega
    · have := e3 h3; omega
    · have := e4 h3; omega
  have h6 : (view σ a).nS = σ.nShut a := rfl
  omega

/-- if no message is on its way, either the child manager has agreed to the shutdown or a child is still shutting down -/
theorem C35_waits (hc : φ.nc = true) (hn : φ.ns = true) (hw : φ.wa = true) (hr : Reach c φ σ) (hq : Quiet σ) (hs : σ.st = .shuttingDown) :
    σ.closed = true ∨ ∃ a, (σ.kid a).st = .shuttingDown := by
  have hk := hr.k hw hn
  cases hcl : σ.closed with
  | true => exact .inl rfl
  | false =>
    right
    rcases hk.2 hs with h | ⟨a, r, h1, h2⟩
    · rw [hcl] at h; simp at h
    · have h5 : 5 ≤ (view σ a).st.rank := by simp [view, hs, AState.rank]
      have hk1 := hk.1 a h5 r h1
      cases ha : r.act with
      | true => exact ⟨a, asked_dying hr hq hcl h1 ha (hk1.1 ha)⟩
      | false =>
        have hact : r.info.active = true := by
          rw [ha, hk1.2] at h2; simpa using h2
        have := hr.sp hn hc a r h1 ha hact hk1.2
        rw [hq.s] at this; simp at this

/-! ## C36: one shutdown request per child instance -/

theorem C36_once (hr : Reach c φ σ) (a : Nat) : σ.nShut a ≤ 1 := (hr.inv a).a.ns1

/-- a child shuts down only if it has been asked -/
theorem C36_needed (hr : Reach c φ σ) (a : Nat) (h : AState.shuttingDown.rank ≤ (σ.kid a).st.rank) : σ.nShut a = 1 := by
  have h1 := (hr.inv a).a.ns1
  have h2 := (hr.inv a).a.ns0
  have e : (view σ a).nS = σ.nShut a := rfl
  have h3 : 5 ≤ (view σ a).k.st.rank := h
  by_cases h0 : σ.nShut a = 0
  · have := (h2 h0).1
    omega
  · omega

/-! ## C37: the start of the children -/

theorem C37_once (hr : Reach c φ σ) (a : Nat) : σ.nStart a ≤ 1 := by
  have hb := (hr.inv a).b
  cases hc : c.sync with
  | false => exact (hb.us hc).1
  | true => exact Nat.le_trans (hb.sy hc) hb.sgl.1

/-- with `synchronize_start`: no child is operational before the supervisor has been started -/
theorem C37_barrier (hc : c.sync = true) (hr : Reach c φ σ) (a : Nat) (h : (σ.kid a).st = .operational) :
    σ.starts = 1 ∧ AState.operational.rank ≤ σ.st.rank := by
  have hb := (hr.inv a).b
  have h1 := hb.op (.inl h)
  have h2 := hb.sy hc
  have h3 := hb.sgl
  have e : (view σ a).sg = σ.starts := rfl
  refine ⟨by omega, ?_⟩
  refine Nat.lt_of_not_le (fun hle => ?_)
  have := h3.2 hle
  omega

theorem start_op {op : Op} (he : step c σ op = .ok σ') (h : σ'.starts ≠ σ.starts) : ∃ t, σ' = onStart c { σ with q := t } ∧ σ.st = .initialized := by
  have key : ∀ t, σ' = onStart c { σ with q := t } → ∃ t, σ' = onStart c { σ with q := t } ∧ σ.st = .initialized := by
    intro t e
    refine ⟨t, e, ?_⟩
    by_cases hs : σ.st = .initialized
    · exact hs
    · subst e
      unfold onStart at h
      rw [if_neg (by exact hs)] at h
      exact absurd rfl h
  by_cases hn : NoStart σ op
  · have := ss_step (nr := ⟨false, true, false⟩) he (by simp) (fun _ => hn) (by simp)
    have h2 := SSteps.keeps (P := fun v : SV => v.starts = σ.starts) (fun v w hv st => by
      cases st <;> (try exact hv) <;> simp_all) this rfl
    exact absurd h2 h
  · cases op with
    | recv o =>
      have : ∃ t, σ.q = .startSelf :: t := Classical.byContradiction (fun hx => hn (fun t e => hx ⟨t, e⟩))
      obtain ⟨t, hq⟩ := this
      simp only [step, hq] at he
      split at he
      · injection he with he; subst he; exact absurd rfl h
      · simp only [handle] at he
        injection he with he; exact key t he.symm
    | pStart =>
      simp only [step] at he
      split at he
      · injection he with he; exact key σ.q he.symm
      · simp at he
    | _ => exact absurd trivial hn

/-- with `synchronize_start`: when the supervisor starts, all its children are initialized. Here no child is created while the plugins are
asked for the initialization (`nl`) or the supervisor is INITIALIZED (`nm`) -/
theorem C37_all_ready {op : Op} (hc : c.sync = true) (hl : φ.nl = true) (hm : φ.nm = true) (hr : Reach c φ σ)
    (he : step c σ op = .ok σ') (h : σ'.starts ≠ σ.starts) (a : Nat) (hb : (σ.kid a).born = true) : Past σ a := by
  obtain ⟨t, _, hs⟩ := start_op he h
  by_cases h6 : (σ.kid a).st = .shutDown
  · unfold Past; rw [h6]; simp [AState.rank]
  · obtain ⟨r, h1, h2⟩ := living_rec hr ⟨hb, h6⟩
    exact (hr.t (.inr ⟨hl, hm⟩) a).t1 hc hs r h1 h2

/-- with `synchronize_start`: then every living child is sent the start message -/
theorem C37_all_started {op : Op} (hc : c.sync = true) (hr : Reach c φ σ) (he : step c σ op = .ok σ') (h : σ'.starts ≠ σ.starts) (a : Nat)
    (hl : Living σ a) : .start ∈ σ'.to a ∧ σ'.nStart a = 1 := by
  obtain ⟨r, h1, h2⟩ := living_rec hr hl
  have hr' : Reach c .any σ' := .step op hr.any (adm_any _ op) he
  have hle := C37_once hr' a
  obtain ⟨t, e, hs⟩ := start_op he h
  have hs' : ({ σ with q := t } : State).st = .initialized := hs
  have e1 : σ'.to a = σ.to a ++ [.start] ∧ σ'.nStart a = σ.nStart a + 1 := by
    rw [e]
    unfold onStart
    rw [if_pos hs', if_pos hc]
    simp [h1]
  refine ⟨by rw [e1.1]; simp, ?_⟩
  have := e1.2
  omega

/-- a child that has been sent the start message and is initialized gets it, and becomes operational -/
theorem C37_arrives (hn : c.sync = false ∨ (φ.nl = true ∧ φ.nm = true)) (hr : Reach c φ σ) (a : Nat) (h1 : σ.nStart a = 1)
    (h2 : (σ.kid a).st = .initialized) : .start ∈ σ.to a := (hr.t hn a).t3 h2 (by simp only [view]; omega)

/-- without `synchronize_start`: the answer of a child is followed by its start message -/
theorem C37_immediate {o : Ora} {a : Nat} {t : List SMsg} (hc : c.sync = false) (hr : Reach c φ σ) (hq : σ.q = .kid a (.initRes true) :: t)
    (hi : σ.iA a = true) (hl : Living σ a) (hs : σ.st ≠ .shutDown) (he : step c σ (.recv o) = .ok σ') : .start ∈ σ'.to a ∧ σ'.nStart a = 1 := by
  obtain ⟨r, h1, h2⟩ := living_rec hr hl
  have hr' : Reach c .any σ' := .step (.recv o) hr.any (adm_any _ _) he
  have hle := C37_once hr' a
  have key : ∀ τ : State, initContinue c o τ = .ok σ' → a < τ.nx → σ'.to a = τ.to a ∧ σ'.nStart a = τ.nStart a := by
    intro τ e hlt
    unfold initContinue at e
    split at e
    · unfold actorInitContinue at e
      split at e
      · split at e
        · injection e with e; subst e; exact ⟨rfl, rfl⟩
        · simp only at e
          have hcr : ∀ (n : Nat) (ρ : State), (createN o.now n ρ).to = ρ.to ∧ (createN o.now n ρ).nStart = ρ.nStart := by
            intro n
            induction n with
            | zero => intro ρ; exact ⟨rfl, rfl⟩
            | succ n ih => intro ρ; simp only [createN]; rw [(ih _).1, (ih _).2]; exact ⟨rfl, rfl⟩
          have := hcr o.late { { τ with rInit := false } with rInit := false }
          split at e
          · injection e with e; subst e
            exact ⟨congrFun this.1 a, congrFun this.2 a⟩
          · injection e with e; subst e
            exact ⟨congrFun this.1 a, congrFun this.2 a⟩
      · simp at e
    · injection e with e; subst e; exact ⟨rfl, rfl⟩
  have hlt : a < σ.nx := fresh_born hr.base.1 hl.1
  simp only [step, hq] at he
  rw [if_neg hs] at he
  simp only [handle, onKid, hi, if_true, onInitOk, h1, hc, Bool.false_eq_true, if_false] at he
  have e1 : σ'.to a = σ.to a ++ [.start] ∧ σ'.nStart a = σ.nStart a + 1 := by
    split at he
    · injection he with he; subst he
      simp [upd]
    · have := key _ he hlt
      rw [this.1, this.2]
      simp [upd]
  refine ⟨by rw [e1.1]; simp, ?_⟩
  have := e1.2
  omega

/-- without `synchronize_start`: if no message is on its way, no child is left initialized but not operational, unless the initialization
of the supervisor has failed or it has been told to shut down -/
theorem C37_started (hc : c.sync = false) (hr : Reach c φ σ) (hq : Quiet σ) (hcl : σ.closed = false) (hf : ¬ Failing σ) (a : Nat) :
    (σ.kid a).st ≠ .initialized := by
  intro h
  have hv := hr.inv a
  have hT := hr.t (.inl hc) a
  have hborn : (σ.kid a).born = true := by
    cases hb : (σ.kid a).born with
    | true => rfl
    | false =>
      have := (hv.a.unb hb).1
      simp only [view] at this
      rw [this] at h; simp [Kid.no] at h
  obtain ⟨r, h1, h2⟩ := living_rec hr (a := a) ⟨hborn, by rw [h]; simp⟩
  cases hin : r.initialized with
  | true =>
    have h3 := hT.t4 hc r h1 h2 hin
    have h4 := hT.t3 h (by omega)
    rw [hq.t] at h4; simp at h4
  | false =>
    have hl := hv.l.l1 hcl r h1 h2 hin
    rw [hq.s, hq.o] at hl
    simp only [List.not_mem_nil, false_or] at hl
    rcases hl with hl | hl | hl
    · have h4 := hv.l.l2 hcl hl
      rw [hq.s, hq.o, hq.t] at h4
      simp only [List.not_mem_nil, false_or, exists_false] at h4
      have e : (view σ a).k.st = .initialized := h
      rw [e] at h4
      simp [AState.rank] at h4
    · have := asked_dying hr hq hcl h1 h2 hl
      rw [h] at this; simp at this
    · rw [sf_iff] at hl; exact hf hl

/-! ## C38: a child fails to initialize -/

theorem failure_step {o : Ora} {a : Nat} (hf : Failure σ a) (hs : σ.st ≠ .shutDown) (he : step c σ (.recv o) = .ok σ') :
    ∃ t, (σ.q = .kid a (.initRes false) :: t ∨ σ.q = .kid a .initErr :: t) ∧ ∃ i, onInitErr c a { σ with q := t, iA := i } = .ok σ' := by
  rcases hf with ⟨t, hq, hi⟩ | ⟨t, hq⟩
  · refine ⟨t, .inl hq, upd σ.iA a false, ?_⟩
    simp only [step, hq] at he
    rw [if_neg hs] at he
    simpa only [handle, onKid, hi, if_true, Bool.false_eq_true, if_false] using he
  · refine ⟨t, .inr hq, σ.iA, ?_⟩
    simp only [step, hq] at he
    rw [if_neg hs] at he
    exact he

/-- `shutdown_self`: the initialization of the supervisor fails, or it is told to shut down -/
theorem C38_self {o : Ora} {a : Nat} (hp : c.selfPolicy = true) (hs : σ.st = .initializing) (hf : Failure σ a)
    (he : step c σ (.recv o) = .ok σ') : Failing σ' := by
  obtain ⟨t, _, i, e⟩ := failure_step hf (by rw [hs]; simp) he
  unfold onInitErr at e
  rw [if_pos ⟨hs, hp⟩] at e
  injection e with e
  subst e
  split
  · left; simp [failInit]
  · right
    unfold doShutdownSelf
    have : ({ σ with q := t, iA := i } : State).st.rank < AState.shuttingDown.rank := by simp [hs, AState.rank]
    rw [if_pos this]
    simp

/-- it stays so -/
theorem C38_stays {op : Op} (hf : Failing σ) (he : step c σ op = .ok σ') : Failing σ' := by
  have := SSteps.keeps (P := fun v : SV => 0 < v.fails ∨ 0 < v.wants) (fun v w hv st => by
    cases st <;> (try exact hv) <;> grind) (ss_step (nr := ⟨false, false, false⟩) he (by simp) (by simp) (by simp)) hf
  exact this

/-- and a root supervisor is shut down therefore -/
theorem C38_root (hc : c.root = true) (hr : Reach c φ σ) (hq : σ.q = []) (hf : Failing σ) : AState.shuttingDown.rank ≤ σ.st.rank := by
  have := hr.r.r2 hc hf
  have hq0 : (sview σ).q = [] := by simp [sview, hq]
  rw [hq0] at this
  simp only [List.not_mem_nil, false_or, false_and, or_false] at this
  exact this

/-- `shutdown_failed`: the failure has no other effect than that the child is told to shut down -/
theorem C38_failed {o : Ora} {a : Nat} (hp : c.selfPolicy = false) (hr : Reach c φ σ) (hl : Living σ a) (hs : σ.st ≠ .shutDown) (hf : Failure σ a)
    (he : step c σ (.recv o) = .ok σ') : σ'.initReq = σ.initReq ∧ σ'.initFails = σ.initFails ∧ σ'.wants = σ.wants ∧ σ'.st = σ.st ∧
      σ'.recs = σ.recs ∧ (.kid a .trigger ∈ σ'.q ∨ (σ.kid a).st = .shuttingDown) := by
  obtain ⟨r, h1, h2⟩ := living_rec hr hl
  obtain ⟨t, _, i, e⟩ := failure_step hf hs he
  unfold onInitErr at e
  rw [if_neg (by simp [hp])] at e
  have h1' : ({ σ with q := t, iA := i } : State).recs.find a = some r := h1
  rw [h1'] at e
  simp only [h2, if_true] at e
  injection e with e
  subst e
  unfold doShutdownKid
  split
  · exact ⟨rfl, rfl, rfl, rfl, rfl, .inl (by simp)⟩
  · rename_i h5
    refine ⟨rfl, rfl, rfl, rfl, rfl, .inr ?_⟩
    have h5' : ¬ (σ.kid a).st.rank < 5 := h5
    have h6 := hl.2
    cases hk : (σ.kid a).st <;> simp_all [AState.rank]

/-- if no message is on its way, a child that has answered its init request is past its initialization, also if the answer was a failure: it
is shutting down then; unless the supervisor fails -/
theorem C38_child (hr : Reach c φ σ) (hq : Quiet σ) (hcl : σ.closed = false) (hf : ¬ Failing σ) (a : Nat) (h : (σ.kid a).ans = true) : Past σ a := by
  unfold Past
  have e3 : AState.initialized.rank = 3 := rfl
  rw [e3]
  refine Nat.lt_of_not_le (fun h3 => ?_)
  have hv := hr.inv a
  have hborn : (σ.kid a).born = true := by
    cases hb : (σ.kid a).born with
    | true => rfl
    | false =>
      have := (hv.a.unb hb).1
      simp only [view] at this
      rw [this] at h; simp [Kid.no] at h
  have h6 : (σ.kid a).st ≠ .shutDown := fun e => by rw [e] at h3; simp [AState.rank] at h3
  obtain ⟨r, h1, h2⟩ := living_rec hr (a := a) ⟨hborn, h6⟩
  have hin : r.initialized = false := by
    cases hin : r.initialized with
    | false => rfl
    | true =>
      have := (hv.b.ini3 r h1 h2 hin).1
      simp only [view] at this
      omega
  have hl := hv.l.l1 hcl r h1 h2 hin
  rw [hq.s, hq.o] at hl
  simp only [List.not_mem_nil, false_or] at hl
  rcases hl with hl | hl | hl
  · have h4 := hv.l.l2 hcl hl
    rw [hq.s, hq.o, hq.t] at h4
    simp only [List.not_mem_nil, false_or, exists_false] at h4
    rcases h4 with h4 | h4
    · have : (σ.kid a).ans = false := h4.2.1
      rw [h] at this; simp at this
    · have : 5 ≤ (σ.kid a).st.rank := h4
      omega
  · have := asked_dying hr hq hcl h1 h2 hl
    rw [this] at h3; simp [AState.rank] at h3
  · rw [sf_iff] at hl; exact hf hl

/-- `shutdown_failed`, contrary to its description (`include/rotor/policy.h`): when a child that has not been started is removed while the
supervisor initializes, the supervisor is told to shut down (as in `tests/023-supervisor-children.cpp:322`) -/
theorem C38_removed {o : Ora} {a : Nat} {r : Rec} (hp : c.selfPolicy = false) (hs : σ.st = .initializing) (h1 : σ.recs.find a = some r)
    (h3 : r.started = false) (he : removeChild c a o σ = .ok σ') : Failing σ' := by
  obtain ⟨r', h2, _, e⟩ := removeChild_eq he
  rw [h1] at h2
  injection h2 with h2
  subst h2
  have hpol : removePolicy c r σ = doShutdownSelf c σ := by
    unfold removePolicy
    rw [if_pos ⟨hs, h3⟩, if_neg (by simp [hp])]
  rw [hpol] at e
  have hf : Failing (doShutdownSelf c σ) := by
    right
    unfold doShutdownSelf
    rw [if_pos (by simp [hs, AState.rank])]
    simp
  have k : ∀ {x y : State}, SSim c ⟨false, false, false⟩ x y → Failing x → Failing y := by
    intro x y hxy hx
    exact SSteps.keeps (P := fun v : SV => 0 < v.fails ∨ 0 < v.wants) (fun v w hv st => by
      cases st <;> (try exact hv) <;> grind) hxy hx
  have hf1 := k ((SSim.eq (sv_cancelInit a (doShutdownSelf c σ))).trans (ss_removeRec a r o _)) hf
  unfold removeEnd at e
  split at e
  · split at e
    · simp at e
    · rename_i σ2 e2
      exact k (ss_initContinue e) (k (ss_shutdownContinue e2) hf1)
  · exact k (ss_initContinue e) hf1

/-! ## C55: messages about children find their records -/

/-- no assertion of the child manager fails, and no actor is missing in a record, if the timers of init requests do not expire after the
child has been asked to shut down (`nt`) -/
theorem C55_safe {op : Op} {e : Err} (hn : φ.nt = true) (hr : Reach c φ σ) (he : step c σ op = .error e) : e = .illegal := by
  cases op with
  | recv o =>
    simp only [step] at he
    split at he
    · simp at he
    · rename_i m t hq
      split at he
      · simp at he
      · obtain ⟨σ2, h2⟩ := handle_ok (c := c) (m := m) (o := o) (σ := { σ with q := t }) (fun a k hm => by
          subst hm
          have hp := push_eq hq
          have hi := hr.inv a
          have hd := hr.d hn a
          rw [hp] at hi hd
          exact onKid_ok hi hd)
        rw [h2] at he
        simp at he
  | create | spawn | down | escalate => simp [step] at he
  | drop | initTmoSelf | finish | kidInit | kidDown | kidShut | initTmo | pStart =>
    simp only [step] at he
    split at he
    · simp at he
    · injection he with he; exact he.symm
  | fired a =>
    simp only [step] at he
    split at he
    · injection he with he; exact he.symm
    · split at he
      · split at he <;> simp at he
      · injection he with he; exact he.symm
  | pInit o =>
    simp only [step] at he
    split at he
    · simp only [onInitReq] at he
      split at he
      · rename_i h
        unfold actorInitContinue at he
        rw [if_pos ⟨h, rfl⟩] at he
        split at he
        · simp at he
        · simp only at he; split at he <;> simp at he
      · simp at he
    · injection he with he; exact he.symm
  | pShut o =>
    simp only [step] at he
    split at he
    · obtain ⟨σ2, h2⟩ := sc_ok (o := o) (σ := startShutdown σ) rfl
      rw [h2] at he; simp at he
    · injection he with he; exact he.symm
  | contInit o =>
    simp only [step] at he
    split at he
    · rename_i h
      unfold actorInitContinue at he
      rw [if_pos h] at he
      split at he
      · simp at he
      · simp only at he; split at he <;> simp at he
    · injection he with he; exact he.symm
  | cont o =>
    simp only [step] at he
    split at he
    · rename_i h
      obtain ⟨σ2, h2⟩ := sc_ok (o := o) h
      rw [h2] at he; simp at he
    · injection he with he; exact he.symm
  | kidRecv a lost =>
    simp only [step, kidRecv] at he
    split at he
    · simp at he
    · split at he
      · simp at he
      · split at he <;> simp at he
  | flush a =>
    simp only [step] at he
    split at he <;> simp at he

/-! ## C59: what keeps an actor in memory -/

theorem of_mem_qOf {a : Nat} {m : KM} {q : List SMsg} (h : m ∈ qOf a q) : .kid a m ∈ q := by
  simp only [qOf, List.mem_filterMap] at h
  obtain ⟨x, h1, h2⟩ := h
  cases x <;> simp only [msgOf] at h2 <;> grind

/-- a child that is not shut down is held by its record -/
theorem C59_record_kept (hr : Reach c φ σ) {a : Nat} (h : Living σ a) : ∃ r, σ.recs.find a = some r ∧ r.act = true := living_rec hr h

/-- and the record of a child that is shut down holds it only as long as the supervisor has not got the confirmation (or the last message
about its subscriptions); no child is created after the child manager has agreed (`nc`) -/
theorem C59_record_freed (hc : φ.nc = true) (hr : Reach c φ σ) {a : Nat} {r : Rec} (hs : (σ.kid a).st = .shutDown)
    (hf : σ.recs.find a = some r) (ha : r.act = true) : .kid a .shutRes ∈ σ.q ∨ .shutRes ∈ σ.out a ∨ .kid a .unsub ∈ σ.q := by
  have hv := hr.inv a
  have hcl : σ.closed = false := by
    cases h : σ.closed with
    | false => rfl
    | true => have := ((hr.base.2 a).dead hc h r hf).1; rw [ha] at this; simp at this
  have hn : r.shut ≠ .none := fun h => by
    have h0 := hv.a.nn r hf ha h
    have := (hv.a.ns0 h0).1
    simp only [view, hs] at this
    simp [AState.rank] at this
  rcases hv.l.l3 hcl r hf ha hn with h | h | h | h | h
  · exact absurd h (hv.a.st6 hs)
  · simp only [view, hs] at h; simp at h
  · exact .inl (of_mem_qOf h)
  · exact .inr (.inl h)
  · exact .inr (.inr (of_mem_qOf h))

end Verif.Children
