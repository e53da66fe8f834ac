import Verif.Children.Sim
/-!
# Every operation is a sequence of small steps for every address: operations
-/

namespace Verif.Children
open Verif

variable {c : Conf} {φ : Fl}

theorem sim_down {σ : State} (hn : φ.nd = false) (h : σ.st.rank < 5) : Sim c φ σ (startShutdown σ) := fun a => .to (.down _ hn h) rfl

theorem rank_lt {s : AState} (h1 : s ≠ .shuttingDown) (h2 : s ≠ .shutDown) : s.rank < 5 := by
  cases s <;> simp_all [AState.rank]

theorem sim_onTrigSelf {o : Ora} {σ σ' : State} (h : onTrigSelf c o σ = .ok σ') (hf : Fresh σ) (hs : σ.st ≠ .shutDown) (hnd : φ.nd = false) :
    Sim c φ σ σ' ∧ Fresh σ' := by
  unfold onTrigSelf at h
  split at h
  · split at h
    · simp only at h
      split at h
      · injection h with h; subst h
        exact ⟨.of_eq (fun _ => rfl), hf⟩
      · rename_i hn
        split at h
        · simp at h
        · rename_i σ2 h2
          injection h with h; subst h
          generalize hτ : ({ σ with selfIA := if σ.initReq = true then false else σ.selfIA, selfShut := .confirmed } : State) = τ at h2
          have e0 : ∀ a, view τ a = view σ a := fun a => by subst hτ; rfl
          have f0 : Fresh τ := by subst hτ; exact hf
          have hst : τ.st = σ.st := by subst hτ; rfl
          have s1 : Sim c φ τ (startShutdown τ) := sim_down hnd (by rw [hst]; exact rank_lt hn hs)
          have f1 : Fresh (startShutdown τ) := fresh_of f0 rfl (fun _ _ => rfl)
          have s2 : Sim c φ (startShutdown τ) (askAll (startShutdown τ)) := sim_askAll rfl
          have s3 := sim_shutdownContinue (c := c) (φ := φ) h2
          have f3 := fresh_shutdownContinue h2 (fresh_askAll f1)
          exact ⟨((((Sim.of_eq e0).trans s1).trans s2).trans s3).trans (.of_eq (fun _ => rfl)), f3⟩
    · injection h with h; subst h
      exact ⟨(sim_doShutdownSelf σ).trans (.of_eq (fun _ => rfl)), fresh_doShutdownSelf hf⟩
  · injection h with h; subst h; exact ⟨.refl _, hf⟩

theorem sim_onInitReq {o : Ora} {σ σ' : State} (h : onInitReq c o σ = .ok σ') (hf : Fresh σ) (hd : Base φ σ) (hl : φ.nl = true → o.late = 0) : Sim c φ σ σ' ∧ Fresh σ' := by
  unfold onInitReq at h
  simp only at h
  have s0 : Sim c φ σ { σ with initReq := true } := .of_eq (fun _ => rfl)
  have f0 : Fresh { σ with initReq := true } := hf
  split at h
  · rename_i hs
    exact ⟨s0.trans (sim_actorInitContinue h f0 (hd.sim s0) hl), fresh_actorInitContinue h f0⟩
  · injection h with h; subst h; exact ⟨s0, f0⟩

theorem view_snoc {m : SMsg} (hm : ∀ a, msgOf a m = none) (σ : State) (a : Nat) : view { σ with q := σ.q ++ [m] } a = view σ a := by
  simp [view, qOf_append, hm]

theorem sim_onInitResSelf {ok : Bool} {o : Ora} {σ σ' : State} (h : onInitResSelf c ok o σ = .ok σ') (hf : Fresh σ) (hd : Base φ σ) (hl : φ.nl = true → o.late = 0) :
    Sim c φ σ σ' ∧ Fresh σ' := by
  unfold onInitResSelf at h
  split at h
  · simp only at h
    have e1 : ∀ a, view (if σ.st.rank ≤ AState.operational.rank then { σ with q := σ.q ++ [.startSelf] } else σ) a = view σ a := by
      intro a
      split
      · exact view_snoc (fun _ => rfl) σ a
      · rfl
    have e2 : (if σ.st.rank ≤ AState.operational.rank then { σ with q := σ.q ++ [.startSelf] } else σ).nx = σ.nx := by split <;> rfl
    generalize (if σ.st.rank ≤ AState.operational.rank then { σ with q := σ.q ++ [.startSelf] } else σ) = τ at *
    have s1 : Sim c φ σ τ := .of_eq e1
    have f1 : Fresh τ := fresh_of hf e2 (fun a _ => by rw [e1])
    split at h
    · injection h with h; subst h; exact ⟨s1, f1⟩
    · exact ⟨s1.trans (sim_initContinue h f1 (hd.sim s1) hl), fresh_initContinue h f1⟩
  · injection h with h; subst h
    exact ⟨sim_doShutdownSelf σ, fresh_doShutdownSelf hf⟩

theorem sim_onStart (σ : State) (hf : Fresh σ) : Sim c φ σ (onStart c σ) ∧ Fresh (onStart c σ) := by
  unfold onStart
  split
  · rename_i hs
    split
    · rename_i hc
      have hfind : ∀ a, AMap.find (σ.recs.map (fun p => (p.1, { p.2 with started := true }))) a = (σ.recs.find a).map (fun r => { r with started := true }) :=
        fun a => find_map_val (fun r : Rec => { r with started := true }) a _
      refine ⟨fun a => ?_, fun a ha => ?_⟩
      · cases hr : σ.recs.find a with
        | none =>
          refine .to (.startN _ hc hs hr) ?_
          simp [view, hfind, hr]
        | some r =>
          refine .to (.startS _ r hc hs hr) ?_
          simp [view, hfind, hr]
      · have hb := hf a ha
        have hr : σ.recs.find a = none := hb.r
        refine hb.congr ?_
        simp [view, hfind, hr]
    · rename_i hc
      exact ⟨fun a => .to (.startU _ (by simpa using hc) hs) rfl, fresh_of hf rfl (fun _ _ => rfl)⟩
  · exact ⟨.refl _, hf⟩

theorem upd_eq {α : Type} (f : Nat → α) (a : Nat) : upd f a (f a) = f := by
  funext j; simp [upd]; intro h; rw [h]

theorem upd_upd {α : Type} (f : Nat → α) (a : Nat) (x y : α) : upd (upd f a x) a y = upd f a y := by
  funext j; simp only [upd]; split <;> rfl

theorem fresh_pop {m : SMsg} {σ : State} (h : Fresh (push m σ)) : Fresh σ := by
  intro a ha
  have := h a ha
  refine ⟨this.k, this.r, ?_, this.o, this.t, this.iA, this.sA, this.nS, this.nI, this.nT⟩
  have hs := this.s
  simp [view, push, qOf_cons] at hs ⊢
  exact hs.2

theorem fresh_iA {σ : State} (hf : Fresh σ) (a : Nat) : Fresh { σ with iA := upd σ.iA a false } := by
  intro b hb
  have := hf b hb
  refine ⟨this.k, this.r, this.s, this.o, this.t, ?_, this.sA, this.nS, this.nI, this.nT⟩
  have hi := this.iA
  simp [view, upd] at hi ⊢
  exact fun _ => hi

theorem fresh_sA {σ : State} (hf : Fresh σ) (a : Nat) : Fresh { σ with sA := upd σ.sA a false } := by
  intro b hb
  have := hf b hb
  refine ⟨this.k, this.r, this.s, this.o, this.t, this.iA, ?_, this.nS, this.nI, this.nT⟩
  have hi := this.sA
  simp [view, upd] at hi ⊢
  exact fun _ => hi

/-- a child may be removed -/
def removes (o : Ora) : SMsg → Bool
  | .kid _ .shutRes => !o.later
  | .kid _ .unsub => true
  | _ => false

/-- what `nk` and `nj` forbid -/
def Still (φ : Fl) (o : Ora) (m : SMsg) : Prop := (φ.nk = true → removes o m = false) ∧ (φ.nj = true → ∀ a, m ≠ .kid a (.initRes true))

theorem Still.nk {o : Ora} {m : SMsg} (h : Still φ o m) (hm : removes o m = true) : φ.nk = false := by
  cases hn : φ.nk with
  | false => rfl
  | true => have := h.1 hn; rw [hm] at this; simp at this

theorem Still.nj {o : Ora} {a : Nat} (h : Still φ o (.kid a (.initRes true))) : φ.nj = false := by
  cases hn : φ.nj with
  | false => rfl
  | true => exact absurd rfl (h.2 hn a)

theorem sim_onKid {a : Nat} {m : KM} {o : Ora} {σ σ' : State} (h : onKid c a m o σ = .ok σ') (hf : Fresh (push (.kid a m) σ)) (hd : Base φ (push (.kid a m) σ))
    (hl : φ.nl = true → o.late = 0) (hk : Still φ o (.kid a m))
    (hm : m = .spawn → ∀ r, σ.recs.find a = some r → r.info.active = true → May φ σ) : Sim c φ (push (.kid a m) σ) σ' ∧ Fresh σ' := by
  have hf' : Fresh σ := fresh_pop (m := .kid a m) hf
  clear hf
  cases m with
  | create => exact ⟨sim_onCreate h, fresh_onCreate h hf'⟩
  | spawn => exact ⟨sim_onSpawn h hf' (hm rfl), fresh_onSpawn h hf'⟩
  | initRes ok =>
    simp only [onKid] at h
    split at h
    · rename_i hi
      have e : push (.kid a (.initRes ok)) σ = pushRes a ok { σ with iA := upd σ.iA a false } := by
        simp only [push, pushRes, upd_upd]
        rw [← hi, upd_eq]
      rw [e] at hd ⊢
      have hi' : ({ σ with iA := upd σ.iA a false } : State).iA a = false := by simp [upd]
      split at h
      · rename_i hok; subst hok
        exact sim_onInitOk h hi' (fresh_iA hf' a) hd hl hk.nj
      · rename_i hok
        have : ok = false := by simpa using hok
        subst this
        exact ⟨(sim_onInitErr h).1 hi', fresh_onInitErr h (fresh_iA hf' a)⟩
    · rename_i hi
      injection h with h; subst h
      exact ⟨sim_pop1 (.to (.resDrop _ ok _ rfl (Bool.eq_false_iff.2 hi)) rfl) (fun _ _ => rfl), hf'⟩
  | initErr => exact ⟨(sim_onInitErr h).2, fresh_onInitErr h hf'⟩
  | trigger => exact sim_onTrigger h hf'
  | shutRes =>
    simp only [onKid] at h
    split at h
    · rename_i hi
      have e : push (.kid a .shutRes) σ = pushShut a { σ with sA := upd σ.sA a false } := by
        simp only [push, pushShut, upd_upd]
        rw [← hi, upd_eq]
      rw [e] at hd ⊢
      exact sim_onShutRes h (by simp [upd]) (fresh_sA hf' a) hd hl (fun hlat => hk.nk (by simp [removes, hlat]))
    · rename_i hi
      injection h with h; subst h
      exact ⟨sim_pop1 (.to (.shutDrop _ _ rfl (Bool.eq_false_iff.2 hi)) rfl) (fun _ _ => rfl), hf'⟩
  | unsub => exact sim_onUnsub h hf' hd hl (hk.nk rfl)

theorem push_eq {m : SMsg} {t : List SMsg} {σ : State} (h : σ.q = m :: t) : σ = push m { σ with q := t } := by
  cases σ; simp only [push] at *; rw [h]

theorem sim_handle {m : SMsg} {o : Ora} {σ σ' : State} (h : handle c m o σ = .ok σ') (hf : Fresh (push m σ)) (hd : Base φ (push m σ)) (hs : σ.st ≠ .shutDown)
    (hl : φ.nl = true → o.late = 0) (hk : Still φ o m) (hnd : φ.nd = true → m ≠ .trigSelf)
    (hm : ∀ a, m = .kid a .spawn → ∀ r, σ.recs.find a = some r → r.info.active = true → May φ σ) :
    Sim c φ (push m σ) σ' ∧ Fresh σ' := by
  have hf' : Fresh σ := fresh_pop (m := m) hf
  cases m with
  | kid a m =>
    refine sim_onKid h hf hd hl hk ?_
    intro e; subst e; exact hm a rfl
  | trigSelf =>
    have := sim_onTrigSelf (c := c) (φ := φ) h hf' hs (by
      cases hn : φ.nd with
      | false => rfl
      | true => exact absurd rfl (hnd hn))
    exact ⟨(Sim.of_eq (fun a => (view_push_other (fun _ => rfl) σ a).symm)).trans this.1, this.2⟩
  | initReqSelf =>
    have s0 : Sim c φ (push .initReqSelf σ) σ := Sim.of_eq (fun a => (view_push_other (fun _ => rfl) σ a).symm)
    have := sim_onInitReq (c := c) (φ := φ) h hf' (hd.sim s0) hl
    exact ⟨s0.trans this.1, this.2⟩
  | initResSelf ok =>
    have s0 : Sim c φ (push (.initResSelf ok) σ) σ := Sim.of_eq (fun a => (view_push_other (fun _ => rfl) σ a).symm)
    simp only [handle] at h
    split at h
    · have s1 : Sim c φ σ { σ with selfIA := false } := .of_eq (fun _ => rfl)
      have := sim_onInitResSelf (c := c) (φ := φ) (σ := { σ with selfIA := false }) h hf' (hd.sim (s0.trans s1)) hl
      exact ⟨(s0.trans s1).trans this.1, this.2⟩
    · injection h with h; subst h; exact ⟨s0, hf'⟩
  | initErrSelf =>
    have s0 : Sim c φ (push .initErrSelf σ) σ := Sim.of_eq (fun a => (view_push_other (fun _ => rfl) σ a).symm)
    have := sim_onInitResSelf (c := c) (φ := φ) (σ := σ) h hf' (hd.sim s0) hl
    exact ⟨s0.trans this.1, this.2⟩
  | startSelf =>
    have s0 : Sim c φ (push .startSelf σ) σ := Sim.of_eq (fun a => (view_push_other (fun _ => rfl) σ a).symm)
    simp only [handle] at h
    injection h with h; subst h
    have := sim_onStart (c := c) (φ := φ) σ hf'
    exact ⟨s0.trans this.1, this.2⟩

/-- a message gets lost -/
theorem sim_lost {m : SMsg} {σ : State} (hl : σ.closed = true ∨ σ.st = .shutDown) : Sim c φ (push m σ) σ := by
  intro a
  cases hm : msgOf a m with
  | none => refine .of_eq ?_; simp [view, push, qOf_cons, hm]
  | some x =>
    refine .to (.lost _ x (qOf a σ.q) ?_ hl) ?_
    · simp [view, push, qOf_cons, hm]
    · simp [view, push]

/-- one address changes, by one small step -/
theorem sim_at {σ σ' : State} (a : Nat) (h : VSteps c φ (view σ a) (view σ' a)) (ho : ∀ b, b ≠ a → view σ' b = view σ b) : Sim c φ σ σ' := by
  intro b
  by_cases hb : b = a
  · subst hb; exact h
  · exact .of_eq (ho b hb)

theorem fresh_born {σ : State} (hf : Fresh σ) {a : Nat} (h : (σ.kid a).born = true) : a < σ.nx := by
  refine Nat.lt_of_not_le (fun hx => ?_)
  have := (hf a hx).k
  simp only [view] at this
  rw [this] at h; simp [Kid.no] at h

theorem sim_kidRecv {a : Nat} {lost : Bool} {σ σ' : State} (h : kidRecv a lost σ = .ok σ') (hf : Fresh σ) : Sim c φ σ σ' ∧ Fresh σ' := by
  unfold kidRecv at h
  split at h
  · injection h with h; subst h; exact ⟨.refl _, hf⟩
  · rename_i m t ht
    simp only at h
    have htv : (view σ a).t = m :: t := ht
    have hlt : a < σ.nx := by
      refine Nat.lt_of_not_le (fun hx => ?_)
      have := (hf a hx).t
      rw [htv] at this; simp at this
    split at h
    · rename_i hk
      injection h with h; subst h
      have hne : ∀ b, b ≠ a → view { σ with to := upd σ.to a t } b = view σ b := fun b hb => by simp [view, upd, hb]
      refine ⟨sim_at a (.to (.kLost _ m t htv ?_) ?_) hne, fresh_upd hf rfl hlt (fun b hb => by rw [hne b hb])⟩
      · rcases hk with hk | hk | hk
        · exact .inl hk
        · right; simp [view, hk, AState.rank]
        · right; simp [view, hk.2, AState.rank]
      · simp [view, upd]
    · rename_i hk
      have hb : (view σ a).k.born = true := by simp only [view]; grind
      have hn : (view σ a).k.st ≠ .shutDown := by simp only [view]; grind
      cases m with
      | initReq =>
        simp only at h
        injection h with h; subst h
        have hne : ∀ b, b ≠ a → view { σ with to := upd σ.to a t, kid := upd σ.kid a { σ.kid a with ireq := true, asked := true } } b = view σ b :=
          fun b hb => by simp [view, upd, hb]
        exact ⟨sim_at a (.to (.kInit _ t htv hb hn) (by simp [view, upd])) hne, fresh_upd hf rfl hlt (fun b hb => by rw [hne b hb])⟩
      | start =>
        simp only at h
        injection h with h
        split at h
        · rename_i hs
          subst h
          have hne : ∀ b, b ≠ a → view { σ with to := upd σ.to a t, kid := upd σ.kid a { σ.kid a with st := .operational } } b = view σ b :=
            fun b hb => by simp [view, upd, hb]
          exact ⟨sim_at a (.to (.kStart _ t htv hb hs) (by simp [view, upd])) hne, fresh_upd hf rfl hlt (fun b hb => by rw [hne b hb])⟩
        · rename_i hs
          subst h
          have hne : ∀ b, b ≠ a → view { σ with to := upd σ.to a t } b = view σ b := fun b hb => by simp [view, upd, hb]
          exact ⟨sim_at a (.to (.kStartNo _ t htv hs) (by simp [view, upd])) hne, fresh_upd hf rfl hlt (fun b hb => by rw [hne b hb])⟩
      | shutReq =>
        simp only at h
        injection h with h; subst h
        have hne : ∀ b, b ≠ a → view { σ with to := upd σ.to a t, kid := upd σ.kid a { σ.kid a with st := .shuttingDown } } b = view σ b :=
          fun b hb => by simp [view, upd, hb]
        exact ⟨sim_at a (.to (.kShut _ t htv hb hn) (by simp [view, upd])) hne, fresh_upd hf rfl hlt (fun b hb => by rw [hne b hb])⟩

/-- what the flags forbid -/
def Adm (φ : Fl) (σ : State) : Op → Prop
  | .create _ | .spawn _ => May φ σ
  | .recv o => (φ.nl = true → o.late = 0) ∧ (φ.wn = true → o.next = true) ∧ (φ.wa = true → o.agree = true) ∧
      (∀ m t, σ.q = m :: t → Still φ o m ∧ (φ.nd = true → m ≠ .trigSelf)) ∧
      ∀ a t, σ.q = .kid a .spawn :: t → ∀ r, σ.recs.find a = some r → r.info.active = true →
        (φ.ns = true → σ.st.rank < 5) ∧ (φ.nm = true → σ.st ≠ .initialized) ∧ (φ.no = true → σ.st ≠ .operational)
  | .pInit o | .contInit o => (φ.nl = true → o.late = 0) ∧ (φ.wn = true → o.next = true)
  | .pShut o => φ.nd = false ∧ (φ.wa = true → o.agree = true)
  | .cont o => φ.wa = true → o.agree = true
  | .fired _ => φ.ns = true → σ.st.rank < 5
  | .initTmo a => φ.nt = true → ∃ r, σ.recs.find a = some r ∧ r.act = true ∧ r.shut = .none
  | _ => True

theorem view_spawn (cfg : Spawner.Cfg) (σ : State) (a : Nat) : view (spawn cfg σ) a =
    if a = σ.nx then { view σ a with r := some { act := false, fac := true, cfg := cfg, info := ⟨0, true, false, 0⟩, initialized := false, started := false, shut := .none }, s := (view σ a).s ++ [.spawn] } else view σ a := by
  by_cases h : a = σ.nx
  · subst h; simp [spawn, view, AMap.find_set, qOf_append, msgOf]
  · simp [spawn, view, AMap.find_set, qOf_append, msgOf, h, Ne.symm h]

theorem sim_step {op : Op} {σ σ' : State} (h : step c σ op = .ok σ') (hf : Fresh σ) (hd : Base φ σ) (ha : Adm φ σ op) :
    Sim c φ σ σ' ∧ Fresh σ' := by
  cases op with
  | create now =>
    simp only [step] at h
    injection h with h; subst h
    exact ⟨sim_addKid (hf _ (Nat.le_refl _)) ha rfl (unused_manual now), fresh_addKid hf⟩
  | spawn cfg =>
    simp only [step] at h
    injection h with h; subst h
    refine ⟨sim_at σ.nx ?_ (fun b hb => by rw [view_spawn, if_neg hb]), fun b hb => ?_⟩
    · rw [view_spawn, if_pos rfl]
      have hb := hf σ.nx (Nat.le_refl _)
      refine .to (.spawner _ _ hb ha ?_ ?_ ?_) (by rw [hb.s]; rfl)
      · rfl
      · exact ⟨rfl, rfl, rfl, rfl⟩
      · rfl
    · have e : (spawn cfg σ).nx = σ.nx + 1 := rfl
      rw [e] at hb
      rw [view_spawn, if_neg (by omega)]
      exact hf b (by omega)
  | recv o =>
    simp only [step] at h
    split at h
    · injection h with h; subst h; exact ⟨.refl _, hf⟩
    · rename_i m t hq
      have hp := push_eq hq
      split at h
      · rename_i hs
        injection h with h; subst h
        rw [hp] at hf
        have s1 : Sim c φ (push m { σ with q := t }) { σ with q := t } := sim_lost (.inr hs)
        rw [← hp] at s1
        exact ⟨s1, fresh_pop (m := m) hf⟩
      · rename_i hs
        have hf1 := hf
        rw [hp] at hf1
        have hd1 := hd
        rw [hp] at hd1
        have := sim_handle (φ := φ) h hf1 hd1 hs ha.1 (ha.2.2.2.1 m t hq).1 (ha.2.2.2.1 m t hq).2 (fun a e r hr hact => by
          have hm := ha.2.2.2.2 a t (by rw [hq, e]) r hr hact
          refine ⟨fun hc => ?_, hm⟩
          cases hcl : σ.closed with
          | false => rfl
          | true =>
            have := ((hd a).dead hc hcl r hr).2.2
            rw [hact] at this; simp at this)
        rw [← hp] at this
        exact this
  | drop =>
    simp only [step] at h
    split at h
    · rename_i hcl
      injection h with h; subst h
      cases hq : σ.q with
      | nil =>
        have e : ({ σ with q := [].tail } : State) = σ := by cases σ; simp only at hq; subst hq; rfl
        rw [e]; exact ⟨.refl _, hf⟩
      | cons m t =>
        have hp := push_eq hq
        rw [hp] at hf
        have s1 : Sim c φ (push m { σ with q := t }) { σ with q := t } := sim_lost (.inl hcl)
        rw [← hp] at s1
        exact ⟨s1, fresh_pop (m := m) hf⟩
    · simp at h
  | fired a =>
    simp only [step] at h
    split at h
    · simp at h
    · rename_i r hr
      split at h
      · rename_i ht
        split at h
        · rename_i hs
          injection h with h; subst h
          have hne : ∀ b, b ≠ a → view { σ.setRec a { r with info := { r.info with timer := false } } with q := σ.q ++ [.kid a .spawn] } b = view σ b := fun b hb => by
            simp [view, State.setRec, AMap.find_set, qOf_append, msgOf, hb, Ne.symm hb]
          exact ⟨sim_at a (.to (.fired _ r hr ht hs) (by simp [view, State.setRec, AMap.find_set, qOf_append, msgOf])) hne,
            fresh_upd hf rfl (fresh_lt hf hr) (fun b hb => by rw [hne b hb])⟩
        · rename_i hs
          injection h with h; subst h
          have hs' : 5 ≤ σ.st.rank := by
            have : ¬ (σ.st.rank ≤ 4) := hs
            omega
          have hns : φ.ns = false := by
            cases hn : φ.ns with
            | false => rfl
            | true => have := ha hn; omega
          exact ⟨sim_at a (.to (.firedLate _ r hr ht hs' hns) (by rw [view_setRec, if_pos rfl])) (fun b hb => by rw [view_setRec, if_neg hb]), fresh_setRec hf hr⟩
      · simp at h
  | down =>
    simp only [step] at h
    injection h with h; subst h
    exact ⟨sim_doShutdownSelf σ, fresh_doShutdownSelf hf⟩
  | escalate =>
    simp only [step] at h
    injection h with h; subst h
    have e := view_snoc (m := .trigSelf) (fun _ => rfl) σ
    exact ⟨.of_eq e, fresh_of hf rfl (fun a _ => by rw [e])⟩
  | pInit o =>
    simp only [step] at h
    split at h
    · exact sim_onInitReq h hf hd ha.1
    · simp at h
  | pStart =>
    simp only [step] at h
    split at h
    · injection h with h; subst h
      exact sim_onStart σ hf
    · simp at h
  | pShut o =>
    simp only [step] at h
    split at h
    · rename_i hs
      have f1 : Fresh (startShutdown σ) := fresh_of hf rfl (fun _ _ => rfl)
      exact ⟨(sim_down ha.1 hs.2).trans (sim_shutdownContinue h), fresh_shutdownContinue h f1⟩
    · simp at h
  | contInit o =>
    simp only [step] at h
    split at h
    · exact ⟨sim_actorInitContinue h hf hd ha.1, fresh_actorInitContinue h hf⟩
    · simp at h
  | cont o =>
    simp only [step] at h
    split at h
    · exact ⟨sim_shutdownContinue h, fresh_shutdownContinue h hf⟩
    · simp at h
  | initTmoSelf =>
    simp only [step] at h
    split at h
    · injection h with h; subst h
      have e : ∀ a, view { σ with selfIA := false, q := σ.q ++ [.initErrSelf] } a = view σ a := fun a => by simp [view, qOf_append, msgOf]
      exact ⟨.of_eq e, fresh_of hf rfl (fun a _ => by rw [e])⟩
    · simp at h
  | finish =>
    simp only [step] at h
    split at h
    · rename_i hs
      injection h with h; subst h
      exact ⟨fun a => .to (.finish _ hs.2 hs.1) rfl, fresh_of hf rfl (fun _ _ => rfl)⟩
    · simp at h
  | kidRecv a lost => exact sim_kidRecv h hf
  | kidInit a ok keep =>
    simp only [step] at h
    split at h
    · rename_i hk
      injection h with h; subst h
      refine ⟨sim_at a ?_ (fun b hb => by simp [view, upd, hb]), fresh_upd hf rfl (fresh_born hf hk.1) (fun b hb => by simp [view, upd, hb])⟩
      cases ok with
      | true => exact .to (.kOk _ hk.1 hk.2.1 (hk.2.2.2 rfl)) (by simp [view, upd])
      | false => exact .to (.kErr _ keep hk.1 hk.2.1 hk.2.2.1) (by simp [view, upd])
    · simp at h
  | kidDown a =>
    simp only [step] at h
    split at h
    · rename_i hk
      injection h with h; subst h
      exact ⟨sim_at a (.to (.kDown _ hk.1 hk.2) (by simp [view, upd])) (fun b hb => by simp [view, upd, hb]),
        fresh_upd hf rfl (fresh_born hf hk.1) (fun b hb => by simp [view, upd, hb])⟩
    · simp at h
  | kidShut a =>
    simp only [step] at h
    split at h
    · rename_i hk
      injection h with h; subst h
      exact ⟨sim_at a (.to (.kEnd _ hk.1 hk.2) (by simp [view, upd])) (fun b hb => by simp [view, upd, hb]),
        fresh_upd hf rfl (fresh_born hf hk.1) (fun b hb => by simp [view, upd, hb])⟩
    · simp at h
  | flush a =>
    simp only [step] at h
    split at h
    · injection h with h; subst h; exact ⟨.refl _, hf⟩
    · rename_i m t ho
      injection h with h; subst h
      have hlt : a < σ.nx := by
        refine Nat.lt_of_not_le (fun hx => ?_)
        have := (hf a hx).o
        simp [view, ho] at this
      have hne : ∀ b, b ≠ a → view { σ with q := σ.q ++ [.kid a m], out := upd σ.out a t } b = view σ b := fun b hb => by
        simp [view, upd, qOf_append, msgOf, hb, Ne.symm hb]
      exact ⟨sim_at a (.to (.flush _ m t ho) (by simp [view, upd, qOf_append, msgOf])) hne, fresh_upd hf rfl hlt (fun b hb => by rw [hne b hb])⟩
  | initTmo a =>
    simp only [step] at h
    split at h
    · rename_i hi
      injection h with h; subst h
      have hlt : a < σ.nx := by
        refine Nat.lt_of_not_le (fun hx => ?_)
        have := (hf a hx).iA
        simp [view, hi] at this
      have hne : ∀ b, b ≠ a → view { σ with iA := upd σ.iA a false, q := σ.q ++ [.kid a .initErr] } b = view σ b := fun b hb => by
        simp [view, upd, qOf_append, msgOf, hb, Ne.symm hb]
      exact ⟨sim_at a (.to (.tmo _ hi ha) (by simp [view, upd, qOf_append, msgOf])) hne, fresh_upd hf rfl hlt (fun b hb => by rw [hne b hb])⟩
    · simp at h

/-- states reached by executions the flags allow -/
inductive Reach (c : Conf) (φ : Fl) : State → Prop
  | init : Reach c φ (.init c)
  | step {σ σ' : State} (op : Op) : Reach c φ σ → Adm φ σ op → step c σ op = .ok σ' → Reach c φ σ'

theorem Reach.base {σ : State} (h : Reach c φ σ) : Fresh σ ∧ Base φ σ := by
  induction h with
  | init =>
    refine ⟨fun a _ => ?_, ?_⟩
    · rw [view_init]; constructor <;> rfl
    · intro a; rw [view_init]; constructor <;> simp [View.hi]
  | step op _ ha hs ih =>
    have := sim_step hs ih.1 ih.2 ha
    exact ⟨this.2, ih.2.sim this.1⟩

/-- an invariant of the small steps holds in every reachable state -/
theorem Reach.keeps {P : View → Prop} {σ : State} (h : Reach c φ σ) (a : Nat) (h0 : P (view (.init c) a))
    (hs : ∀ v w, P v → VStep c φ v w → P w) : P (view σ a) := by
  induction h with
  | init => exact h0
  | step op hr ha he ih => exact VSteps.keeps hs ((sim_step he hr.base.1 hr.base.2 ha).1 a) ih

end Verif.Children
