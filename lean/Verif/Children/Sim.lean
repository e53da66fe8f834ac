import Verif.Children.View
/-!
# Every operation is a sequence of small steps for every address
-/

namespace Verif.Children
open Verif

/-- for every address, `σ'` is reached from `σ` by small steps -/
def Sim (c : Conf) (φ : Fl) (σ σ' : State) : Prop := ∀ a, VSteps c φ (view σ a) (view σ' a)

variable {c : Conf} {φ : Fl}

theorem Sim.refl (σ : State) : Sim c φ σ σ := fun _ => .refl _
theorem Sim.trans {x y z : State} (h : Sim c φ x y) (h2 : Sim c φ y z) : Sim c φ x z := fun a => (h a).trans (h2 a)
theorem Sim.of_eq {σ σ' : State} (h : ∀ a, view σ' a = view σ a) : Sim c φ σ σ' := fun a => .of_eq (h a)

/-- addresses not given out yet -/
def Fresh (σ : State) : Prop := ∀ a, σ.nx ≤ a → Blank (view σ a)

theorem Blank.congr {v w : View} (h : Blank v)
    (e : w = { v with st := w.st, ri := w.ri, cl := w.cl, sf := w.sf, sg := w.sg }) : Blank w := by
  rw [e]
  exact ⟨h.k, h.r, h.s, h.o, h.t, h.iA, h.sA, h.nS, h.nI, h.nT⟩

theorem qOf_append (a : Nat) (q : List SMsg) (m : SMsg) : qOf a (q ++ [m]) = qOf a q ++ (msgOf a m).toList := by
  cases h : msgOf a m <;> simp [qOf, h]

theorem qOf_cons (a : Nat) (q : List SMsg) (m : SMsg) : qOf a (m :: q) = (msgOf a m).toList ++ qOf a q := by
  cases h : msgOf a m <;> simp [qOf, h]

@[simp] theorem qOf_if (a : Nat) (p : Prop) [Decidable p] (x y : List SMsg) : qOf a (if p then x else y) = if p then qOf a x else qOf a y := by
  split <;> rfl

/-- reduces a claim about a view after a change -/
macro "vw" : tactic => `(tactic| simp_all [view, upd, AMap.find_set, AMap.find_erase, qOf_append, qOf_cons, msgOf, State.setRec])

theorem find_cons {V : Type} (a k : Nat) (b : V) (l : AMap Nat V) :
    AMap.find ((a, b) :: l) k = if a = k then some b else AMap.find l k := by
  simp [AMap.find]

theorem find_map_val {V : Type} (g : V → V) (k : Nat) : ∀ l : AMap Nat V,
    AMap.find (l.map (fun p => (p.1, g p.2))) k = (AMap.find l k).map g := by
  intro l
  induction l with
  | nil => simp
  | cons p l ih =>
    obtain ⟨a, b⟩ := p
    simp only [List.map_cons, find_cons]
    split <;> simp [ih]

/-- what holds for every address at any time: closing comes after the shutdown has begun and leaves no record alive; the INIT reaction
is given up only if the child is not initializing -/
structure VBase (φ : Fl) (v : View) : Prop where
  cl : v.cl = true → 5 ≤ v.st.rank
  fin : v.st = .shutDown → v.cl = true
  dead : φ.nc = true → v.cl = true → ∀ r, v.r = some r → r.dead
  ri : v.st = .initializing → v.ri = false → ¬ v.hi
  spawn : .spawn ∈ v.s → ∀ r, v.r = some r → r.act = false
  timer : ∀ r, v.r = some r → r.info.timer = true → r.act = false
  out : .spawn ∉ v.o

theorem VBase.step {v w : View} (h : VBase φ v) (st : VStep c φ v w) : VBase φ w := by
  obtain ⟨h1, h2, h3, h4, h5, h6, h7⟩ := h
  cases st <;> constructor <;> (try (first | exact h1 | exact h2 | exact h3 | exact h4 | exact h5 | exact h6 | exact h7)) <;>
    (try simp only [View.hi, View.may, Rec.dead, Rec.unused, Rem] at *) <;>
    grind [AState.rank, Kid.new, Kid.no, Blank]

def Base (φ : Fl) (σ : State) : Prop := ∀ a, VBase φ (view σ a)

theorem Base.sim {σ σ' : State} (h : Base φ σ) (hs : Sim c φ σ σ') : Base φ σ' := fun a =>
  VSteps.keeps (fun _ _ hv st => hv.step st) (hs a) (h a)

theorem Base.open {σ : State} (h : Base φ σ) (hs : σ.st = .initializing) : σ.closed = false := by
  cases hc : σ.closed with
  | false => rfl
  | true => have := (h 0).cl hc; simp only [view] at this; rw [hs] at this; simp [AState.rank] at this

/-- an instance may be created -/
def May (φ : Fl) (σ : State) : Prop := (φ.nc = true → σ.closed = false) ∧ (φ.ns = true → σ.st.rank < 5) ∧ (φ.nm = true → σ.st ≠ .initialized) ∧
  (φ.no = true → σ.st ≠ .operational)

theorem Base.may {σ : State} (h : Base φ σ) (hs : σ.st = .initializing) : May φ σ :=
  ⟨fun _ => h.open hs, fun _ => by rw [hs]; simp [AState.rank], fun _ => by rw [hs]; simp, fun _ => by rw [hs]; simp⟩

theorem hasInit_false {σ : State} (h : hasInit σ = false) (a : Nat) : ¬ (view σ a).hi := by
  rintro ⟨r, hr, h1, h2, h3⟩
  have hr' : σ.recs.find a = some r := hr
  have hm := AMap.mem_of_find hr'
  simp only [hasInit, List.any_eq_false] at h
  have := h _ hm
  have h2' : (σ.kid a).st.rank ≤ AState.initializing.rank := h2
  simp [h1, h2', h3] at this

/-! ## the supervisor itself -/

theorem view_failInit (σ : State) (a : Nat) : view (failInit c σ) a = { view σ a with sf := true } := by
  cases h : c.root <;> vw <;> simp [failInit, h, view, qOf_append, msgOf]

theorem sim_failInit (σ : State) : Sim c φ σ (failInit c σ) := fun a => .to (.fail _) (view_failInit σ a)

theorem view_doShutdownSelf (σ : State) (a : Nat) :
    view (doShutdownSelf c σ) a = if σ.st.rank < 5 then { view σ a with sf := true } else view σ a := by
  unfold doShutdownSelf
  have e : AState.shuttingDown.rank = 5 := rfl
  rw [e]
  split
  · cases h : c.root <;> simp [h, view, qOf_append, msgOf]
  · rfl

theorem sim_doShutdownSelf (σ : State) : Sim c φ σ (doShutdownSelf c σ) := fun a => by
  rw [view_doShutdownSelf]
  split
  · exact .one (.fail _)
  · exact .refl _

theorem view_initFinish (σ : State) (a : Nat) : view (initFinish c σ) a = { view σ a with st := .initialized } := by
  cases h : c.root <;> simp [initFinish, h, view, qOf_append, msgOf]

theorem sim_initFinish {σ : State} (h : σ.st = .initializing) (hn : φ.nl = true → ∀ a, ¬ (view σ a).hi) : Sim c φ σ (initFinish c σ) :=
  fun a => .to (.fin _ h (fun hl => hn hl a)) (view_initFinish σ a)

theorem fresh_of {σ σ' : State} (h : Fresh σ) (hx : σ'.nx = σ.nx)
    (e : ∀ a, σ.nx ≤ a → view σ' a = { view σ a with st := (view σ' a).st, ri := (view σ' a).ri, cl := (view σ' a).cl, sf := (view σ' a).sf, sg := (view σ' a).sg }) :
    Fresh σ' := fun a ha => (h a (hx ▸ ha)).congr (e a (hx ▸ ha))

theorem fresh_failInit {σ : State} (h : Fresh σ) : Fresh (failInit c σ) :=
  fresh_of h (by simp [failInit]) (fun a _ => by rw [view_failInit])

theorem fresh_doShutdownSelf {σ : State} (h : Fresh σ) : Fresh (doShutdownSelf c σ) := by
  refine fresh_of h ?_ (fun a _ => ?_)
  · unfold doShutdownSelf; split <;> rfl
  · rw [view_doShutdownSelf]; split <;> rfl

/-- creation of a child -/
theorem view_addKid (r : Rec) (σ : State) (a : Nat) : view (addKid r σ) a =
    if a = σ.nx then { view σ a with k := Kid.new, r := some r, s := (view σ a).s ++ [.create], ri := if σ.st = .initializing then true else σ.rInit }
    else { view σ a with ri := if σ.st = .initializing then true else σ.rInit } := by
  by_cases h : a = σ.nx
  · subst h; simp [addKid, view, upd, AMap.find_set, qOf_append, msgOf]
  · simp [addKid, view, upd, AMap.find_set, qOf_append, msgOf, h, Ne.symm h]

theorem steps_ri (v : View) (p : Prop) [Decidable p] (b : Bool) (hb : b = v.ri) : VSteps c φ v { v with ri := if p then true else b } := by
  split
  · exact .one (.rOn v)
  · exact .of_eq (by rw [hb])

theorem sim_addKid {r : Rec} {σ : State} (hf : Blank (view σ σ.nx)) (hm : May φ σ) (ha : r.act = true) (hu : r.unused) :
    Sim c φ σ (addKid r σ) := by
  intro a
  rw [view_addKid]
  split
  · rename_i h
    subst h
    have := hf.s
    refine .to (.born _ r hf hm ha hu) ?_
    simp only [this, List.nil_append]
    rfl
  · exact steps_ri _ _ _ rfl

theorem fresh_addKid {r : Rec} {σ : State} (h : Fresh σ) : Fresh (addKid r σ) := by
  intro a ha
  have e : (addKid r σ).nx = σ.nx + 1 := rfl
  rw [e] at ha
  rw [view_addKid, if_neg (by omega)]
  exact (h a (by omega)).congr rfl

theorem unused_manual (now : Int) : (Rec.manual now).unused := by simp [Rec.unused, Rec.manual, Spawner.spawnAttempt]

theorem createN_st (now : Int) : ∀ (n : Nat) (σ : State), (createN now n σ).st = σ.st ∧ (createN now n σ).closed = σ.closed ∧
    (createN now n σ).initReq = σ.initReq := by
  intro n
  induction n with
  | zero => intro σ; exact ⟨rfl, rfl, rfl⟩
  | succ n ih => intro σ; simp only [createN]; exact ih (createChild now σ)

theorem sim_createN {now : Int} : ∀ {n : Nat} {σ : State}, Fresh σ → May φ σ → Sim c φ σ (createN now n σ) := by
  intro n
  induction n with
  | zero => intro σ _ _; exact .refl _
  | succ n ih =>
    intro σ hf hm
    simp only [createN]
    exact (sim_addKid (hf _ (Nat.le_refl _)) hm rfl (unused_manual now)).trans (ih (fresh_addKid hf) hm)

theorem fresh_createN {now : Int} : ∀ {n : Nat} {σ : State}, Fresh σ → Fresh (createN now n σ) := by
  intro n
  induction n with
  | zero => intro σ h; exact h
  | succ n ih => intro σ h; simp only [createN]; exact ih (fresh_addKid h)

theorem sim_rOff {σ : State} (h : ∀ a, ¬ (view σ a).hi) : Sim c φ σ { σ with rInit := false } := fun a => .to (.rOff _ (h a)) rfl

theorem sim_actorInitContinue {o : Ora} {σ σ' : State} (h : actorInitContinue c o σ = .ok σ') (hf : Fresh σ)
    (hd : Base φ σ) (hl : φ.nl = true → o.late = 0) : Sim c φ σ σ' := by
  unfold actorInitContinue at h
  split at h
  case isFalse => simp at h
  case isTrue hi =>
    split at h
    · injection h with h; subst h; exact .refl _
    · rename_i hn
      have hno : ∀ a, ¬ (view σ a).hi := by
        cases hr : σ.rInit with
        | false => exact fun a => (hd a).ri hi.1 hr
        | true =>
          have : hasInit σ = false := by
            cases hh : hasInit σ with
            | false => rfl
            | true => exact absurd ⟨hr, hh⟩ hn
          exact fun a => hasInit_false this a
      have f1 : Fresh { σ with rInit := false } := fresh_of hf rfl (fun _ _ => rfl)
      have s0 : Sim c φ σ { σ with rInit := false } := sim_rOff hno
      have s1 : Sim c φ σ (createN o.now o.late { σ with rInit := false }) := s0.trans (sim_createN f1 (hd.may hi.1))
      simp only at h
      split at h
      · injection h with h; subst h
        refine s1.trans (sim_initFinish (by rw [(createN_st _ _ _).1]; exact hi.1) (fun hnl a => ?_))
        rw [hl hnl]
        exact hno a
      · injection h with h; subst h
        exact s1

theorem sim_initContinue {o : Ora} {σ σ' : State} (h : initContinue c o σ = .ok σ') (hf : Fresh σ)
    (hd : Base φ σ) (hl : φ.nl = true → o.late = 0) : Sim c φ σ σ' := by
  unfold initContinue at h
  split at h
  · rename_i hi
    have s0 : Sim c φ σ { σ with rInit := false } := sim_rOff (hasInit_false hi.2.2)
    exact s0.trans (sim_actorInitContinue h (fresh_of hf rfl (fun _ _ => rfl)) (hd.sim s0) hl)
  · injection h with h; subst h; exact .refl _

theorem fresh_initFinish {σ : State} (h : Fresh σ) : Fresh (initFinish c σ) :=
  fresh_of h (by simp [initFinish]) (fun a _ => by rw [view_initFinish])

theorem fresh_actorInitContinue {o : Ora} {σ σ' : State} (h : actorInitContinue c o σ = .ok σ') (hf : Fresh σ) : Fresh σ' := by
  unfold actorInitContinue at h
  split at h
  case isFalse => simp at h
  case isTrue hi =>
    split at h
    · injection h with h; subst h; exact hf
    · have f1 : Fresh { σ with rInit := false } := fresh_of hf rfl (fun _ _ => rfl)
      simp only at h
      split at h
      · injection h with h; subst h; exact fresh_initFinish (fresh_createN f1)
      · injection h with h; subst h; exact fresh_createN f1

theorem fresh_initContinue {o : Ora} {σ σ' : State} (h : initContinue c o σ = .ok σ') (hf : Fresh σ) : Fresh σ' := by
  unfold initContinue at h
  split at h
  · exact fresh_actorInitContinue h (fresh_of hf rfl (fun _ _ => rfl))
  · injection h with h; subst h; exact hf

/-! ## shutdown of all -/

theorem find_askAll (σ : State) (a : Nat) : (askAll σ).recs.find a = (σ.recs.find a).map askRec := find_map_val askRec a _

theorem sim_askAll {σ : State} (hs : σ.st = .shuttingDown) : Sim c φ σ (askAll σ) := by
  intro a
  cases hr : σ.recs.find a with
  | none =>
    refine .of_eq ?_
    have := find_askAll σ a
    simp [view, askAll, asksOf, hr] at this ⊢
    exact this
  | some r =>
    have hf := find_askAll σ a
    rw [hr] at hf
    by_cases h1 : r.act = true
    · by_cases h2 : r.shut = .none
      · refine .to (.ask _ r hr h1 h2 hs) ?_
        simp [view, askAll, asksOf, hr, asks, h1, h2, askRec] at hf ⊢
        exact hf
      · refine .of_eq ?_
        simp [view, askAll, asksOf, hr, asks, h1, h2, askRec] at hf ⊢
        exact hf
    · have h1 : r.act = false := by simpa using h1
      by_cases h2 : r.info.timer = true
      · refine .to (.cancel _ r hr h1 h2 hs) ?_
        simp [view, askAll, asksOf, hr, asks, h1, h2, askRec] at hf ⊢
        exact hf
      · refine .of_eq ?_
        simp [view, askAll, asksOf, hr, asks, h1, h2, askRec] at hf ⊢
        exact hf

theorem fresh_askAll {σ : State} (h : Fresh σ) : Fresh (askAll σ) := by
  refine fresh_of h rfl (fun a ha => ?_)
  have hr : σ.recs.find a = none := (h a ha).r
  have := find_askAll σ a
  simp [view, askAll, asksOf, hr] at this ⊢
  exact this

theorem askAll_st (σ : State) : (askAll σ).st = σ.st ∧ (askAll σ).closed = σ.closed := ⟨rfl, rfl⟩

theorem sim_handleShutdown {σ : State} (hs : σ.st = .shuttingDown) : Sim c φ σ (handleShutdown σ) := by
  have s0 : Sim c φ σ { σ with selfShut := .confirmed } := .of_eq (fun _ => rfl)
  have s1 : Sim c φ { σ with selfShut := .confirmed } (askAll { σ with selfShut := .confirmed }) := sim_askAll hs
  unfold handleShutdown
  simp only
  split
  · exact s0.trans s1
  · rename_i ho
    refine (s0.trans s1).trans (fun a => .to (.close _ hs ?_) rfl)
    intro r hr
    have hr' : (askAll { σ with selfShut := .confirmed }).recs.find a = some r := hr
    have hst : (askAll { σ with selfShut := .confirmed }).st = .shuttingDown := hs
    generalize askAll { σ with selfShut := .confirmed } = τ at *
    have hm := AMap.mem_of_find hr'
    simp only [othersAlive, Bool.not_eq_true, List.any_eq_false] at ho
    have := ho _ hm
    simp [hst] at this
    simp [Rec.dead, this]

theorem fresh_handleShutdown {σ : State} (h : Fresh σ) : Fresh (handleShutdown σ) := by
  unfold handleShutdown
  simp only
  have : Fresh { σ with selfShut := .confirmed } := h
  split
  · exact fresh_askAll this
  · exact fresh_of (fresh_askAll this) rfl (fun _ _ => rfl)

theorem sim_shutdownContinue {o : Ora} {σ σ' : State} (h : shutdownContinue o σ = .ok σ') : Sim c φ σ σ' := by
  unfold shutdownContinue at h
  split at h
  · rename_i hs
    split at h
    · split at h
      · injection h with h; subst h; exact .refl _
      · injection h with h; subst h; exact sim_handleShutdown hs
    · injection h with h; subst h; exact .refl _
  · simp at h

theorem handleShutdown_st (σ : State) : (handleShutdown σ).st = σ.st := by
  unfold handleShutdown
  simp only
  split <;> rfl

theorem shutdownContinue_st {o : Ora} {σ σ' : State} (h : shutdownContinue o σ = .ok σ') :
    σ.st = .shuttingDown ∧ σ'.st = .shuttingDown := by
  unfold shutdownContinue at h
  split at h
  · rename_i hs
    split at h
    · split at h
      · injection h with h; subst h; exact ⟨hs, hs⟩
      · injection h with h; subst h; exact ⟨hs, by rw [handleShutdown_st]; exact hs⟩
    · injection h with h; subst h; exact ⟨hs, hs⟩
  · simp at h

theorem fresh_shutdownContinue {o : Ora} {σ σ' : State} (h : shutdownContinue o σ = .ok σ') (hf : Fresh σ) : Fresh σ' := by
  unfold shutdownContinue at h
  split at h
  · split at h
    · split at h
      · injection h with h; subst h; exact hf
      · injection h with h; subst h; exact fresh_handleShutdown hf
    · injection h with h; subst h; exact hf
  · simp at h

/-! ## messages about children -/

/-- before the message is taken from the queue -/
def push (m : SMsg) (σ : State) : State := { σ with q := m :: σ.q }

theorem view_push_self (a : Nat) (m : KM) (σ : State) : view (push (.kid a m) σ) a = { view σ a with s := m :: (view σ a).s } := by
  simp [push, view, qOf_cons, msgOf]

theorem view_push_ne {a b : Nat} (m : KM) (σ : State) (h : b ≠ a) : view (push (.kid a m) σ) b = view σ b := by
  simp [push, view, qOf_cons, msgOf, Ne.symm h]

theorem view_push_other {m : SMsg} (hm : ∀ a, msgOf a m = none) (σ : State) (a : Nat) : view (push m σ) a = view σ a := by
  simp [push, view, qOf_cons, hm]

/-- the message is taken and the other addresses are not concerned -/
theorem sim_pop {a : Nat} {m : KM} {σ σ' : State} (h : VSteps c φ { view σ a with s := m :: (view σ a).s } (view σ' a))
    (ho : ∀ b, b ≠ a → VSteps c φ (view σ b) (view σ' b)) : Sim c φ (push (.kid a m) σ) σ' := by
  intro b
  by_cases hb : b = a
  · subst hb; rw [view_push_self]; exact h
  · rw [view_push_ne _ _ hb]; exact ho b hb

theorem sim_pop1 {a : Nat} {m : KM} {σ σ' : State} (h : VSteps c φ { view σ a with s := m :: (view σ a).s } (view σ' a))
    (ho : ∀ b, b ≠ a → view σ' b = view σ b) : Sim c φ (push (.kid a m) σ) σ' :=
  sim_pop h (fun b hb => .of_eq (ho b hb))

theorem push_failInit (m : SMsg) (σ : State) : push m (failInit c σ) = failInit c (push m σ) := by
  cases h : c.root <;> simp [push, failInit, h]

theorem push_doShutdownSelf (m : SMsg) (σ : State) : push m (doShutdownSelf c σ) = doShutdownSelf c (push m σ) := by
  unfold doShutdownSelf
  have e : (push m σ).st = σ.st := rfl
  rw [e]
  split
  · cases h : c.root <;> simp [push]
  · rfl

theorem onCreate_eq {a : Nat} {σ σ' : State} (h : onCreate a σ = .ok σ') : ∃ r, σ.recs.find a = some r ∧
    σ' = { σ with to := upd σ.to a (σ.to a ++ [.initReq]), iA := upd σ.iA a true, nInit := upd σ.nInit a (σ.nInit a + 1) } := by
  unfold onCreate at h
  split at h
  · simp at h
  · rename_i r hr
    injection h with h
    exact ⟨r, hr, h.symm⟩

theorem sim_onCreate {a : Nat} {σ σ' : State} (h : onCreate a σ = .ok σ') : Sim c φ (push (.kid a .create) σ) σ' := by
  obtain ⟨r, hr, rfl⟩ := onCreate_eq h
  refine sim_pop1 (.to (.create _ _ r rfl hr) ?_) (fun b hb => ?_)
  · vw
  · vw

theorem fresh_lt {σ : State} (hf : Fresh σ) {a : Nat} {r : Rec} (hr : σ.recs.find a = some r) : a < σ.nx := by
  refine Nat.lt_of_not_le (fun h => ?_)
  have := (hf a h).r
  simp [view, hr] at this

theorem fresh_upd {σ σ' : State} {a : Nat} (hf : Fresh σ) (hx : σ'.nx = σ.nx) (ha : a < σ.nx)
    (e : ∀ b, b ≠ a → view σ' b = { view σ b with st := (view σ' b).st, ri := (view σ' b).ri, cl := (view σ' b).cl, sf := (view σ' b).sf, sg := (view σ' b).sg }) :
    Fresh σ' := fresh_of hf hx (fun b hb => e b (by omega))

theorem fresh_onCreate {a : Nat} {σ σ' : State} (h : onCreate a σ = .ok σ') (hf : Fresh σ) : Fresh σ' := by
  obtain ⟨r, hr, rfl⟩ := onCreate_eq h
  exact fresh_upd hf rfl (fresh_lt hf hr) (fun b hb => by vw)

theorem unused_attempt {r : Rec} {now : Int} : ({ attempt r now with act := true } : Rec).unused := by
  simp [Rec.unused, attempt, Spawner.spawnAttempt]

theorem view_setRec (σ : State) (a : Nat) (r : Rec) (b : Nat) :
    view (σ.setRec a r) b = if b = a then { view σ b with r := some r } else view σ b := by
  by_cases h : b = a
  · subst h; vw
  · simp [view, State.setRec, AMap.find_set, h]

theorem view_createSpawned (a : Nat) (r : Rec) (σ : State) (ha : a < σ.nx) (b : Nat) : view (createSpawned a r σ) b =
    if b = a then { view σ b with r := none, ri := if σ.st = .initializing then true else σ.rInit } else
    if b = σ.nx then { view σ b with k := Kid.new, r := some { r with act := true }, s := (view σ b).s ++ [.create], ri := if σ.st = .initializing then true else σ.rInit }
    else { view σ b with ri := if σ.st = .initializing then true else σ.rInit } := by
  unfold createSpawned
  rw [view_addKid]
  have e : ({ σ with recs := σ.recs.erase a } : State).nx = σ.nx := rfl
  have e2 : ({ σ with recs := σ.recs.erase a } : State).st = σ.st := rfl
  have e3 : ({ σ with recs := σ.recs.erase a } : State).rInit = σ.rInit := rfl
  rw [e, e2, e3]
  by_cases h1 : b = a
  · subst h1
    rw [if_neg (by omega), if_pos rfl]
    simp [view, AMap.find_erase]
  · rw [if_neg h1]
    split
    · simp [view]
    · simp [view, AMap.find_erase, h1]

theorem sim_onSpawn {a : Nat} {o : Ora} {σ σ' : State} (h : onSpawn c a o σ = .ok σ') (hf : Fresh σ)
    (hm : ∀ r, σ.recs.find a = some r → r.info.active = true → May φ σ) : Sim c φ (push (.kid a .spawn) σ) σ' := by
  unfold onSpawn at h
  split at h
  case h_1 => simp at h
  case h_2 r0 hr =>
  split at h
  case isFalse ha =>
    injection h with h; subst h
    exact sim_pop1 (.to (.idle _ _ r0 rfl hr (by simpa using ha)) rfl) (fun b hb => rfl)
  case isTrue ha =>
  have hmay := hm r0 hr ha
  simp only at h
  split at h
  · injection h with h; subst h
    have hlt := fresh_lt hf hr
    refine sim_pop (.cons (.moved _ _ r0 rfl hr ha hmay) ?_) (fun b hb => ?_)
    · rw [view_createSpawned _ _ _ hlt, if_pos rfl]
      exact steps_ri _ _ _ rfl
    · rw [view_createSpawned _ _ _ hlt, if_neg hb]
      split
      · rename_i e
        have hb := hf b (by omega)
        refine .to (.born _ { attempt r0 o.now with act := true } hb hmay rfl unused_attempt) ?_
        have := hb.s
        simp only [this, List.nil_append]
        rfl
      · exact steps_ri _ _ _ rfl
  · split at h
    · rename_i hi
      injection h with h; subst h
      have s1 : Sim c φ (push (.kid a .spawn) σ) (push (.kid a .spawn) (if σ.initReq = true then failInit c σ else doShutdownSelf c σ)) := by
        split
        · rw [push_failInit]; exact sim_failInit _
        · rw [push_doShutdownSelf]; exact sim_doShutdownSelf _
      refine s1.trans ?_
      have hr' : ((if σ.initReq = true then failInit c σ else doShutdownSelf c σ) : State).recs = σ.recs := by
        split
        · rfl
        · unfold doShutdownSelf; split <;> rfl
      have hst : ((if σ.initReq = true then failInit c σ else doShutdownSelf c σ) : State).st = σ.st ∧
        ((if σ.initReq = true then failInit c σ else doShutdownSelf c σ) : State).closed = σ.closed := by
        split
        · exact ⟨rfl, rfl⟩
        · unfold doShutdownSelf; split <;> exact ⟨rfl, rfl⟩
      generalize (if σ.initReq = true then failInit c σ else doShutdownSelf c σ) = τ at *
      rw [← hr'] at hr
      refine sim_pop1 (.to (.threw _ _ r0 { attempt r0 o.now with info := { (attempt r0 o.now).info with active := false } } rfl hr ha rfl rfl (.inr ⟨?_, rfl⟩) ?_) (by rw [view_setRec, if_pos rfl])) (fun b hb => by rw [view_setRec, if_neg hb])
      · simp [attempt, Spawner.spawnAttempt]
      · have := hmay
        unfold May at this
        rw [← hst.2, ← hst.1] at this
        exact this
    · split at h
      · injection h with h; subst h
        exact sim_pop1 (.to (.threw _ _ r0 { attempt r0 o.now with info := { (attempt r0 o.now).info with timer := true } } rfl hr ha rfl rfl (.inl rfl) hmay) (by rw [view_setRec, if_pos rfl])) (fun b hb => by rw [view_setRec, if_neg hb])
      · injection h with h; subst h
        refine sim_pop1 (.to (.threw _ _ r0 { attempt r0 o.now with info := { (attempt r0 o.now).info with active := false } } rfl hr ha rfl rfl (.inr ⟨?_, rfl⟩) hmay) (by rw [view_setRec, if_pos rfl])) (fun b hb => by rw [view_setRec, if_neg hb])
        simp [attempt, Spawner.spawnAttempt]

theorem fresh_setRec {σ : State} (hf : Fresh σ) {a : Nat} {r0 r : Rec} (hr : σ.recs.find a = some r0) : Fresh (σ.setRec a r) :=
  fresh_upd hf rfl (fresh_lt hf hr) (fun b hb => by rw [view_setRec, if_neg hb])

theorem fresh_onSpawn {a : Nat} {o : Ora} {σ σ' : State} (h : onSpawn c a o σ = .ok σ') (hf : Fresh σ) : Fresh σ' := by
  unfold onSpawn at h
  split at h
  case h_1 => simp at h
  case h_2 r0 hr =>
  split at h
  case isFalse ha => injection h with h; subst h; exact hf
  case isTrue ha =>
  simp only at h
  split at h
  · injection h with h; subst h
    have hlt := fresh_lt hf hr
    intro b hb
    have e : (createSpawned a (attempt r0 o.now) σ).nx = σ.nx + 1 := rfl
    rw [e] at hb
    rw [view_createSpawned _ _ _ hlt, if_neg (by omega), if_neg (by omega)]
    exact (hf b (by omega)).congr rfl
  · split at h
    · injection h with h; subst h
      have hr' : ((if σ.initReq = true then failInit c σ else doShutdownSelf c σ) : State).recs = σ.recs := by
        split
        · rfl
        · unfold doShutdownSelf; split <;> rfl
      have f1 : Fresh (if σ.initReq = true then failInit c σ else doShutdownSelf c σ) := by
        split
        · exact fresh_failInit hf
        · exact fresh_doShutdownSelf hf
      generalize (if σ.initReq = true then failInit c σ else doShutdownSelf c σ) = τ at *
      rw [← hr'] at hr
      exact fresh_setRec f1 hr
    · split at h
      · injection h with h; subst h; exact fresh_setRec hf hr
      · injection h with h; subst h; exact fresh_setRec hf hr

/-! ### answers to init requests -/

theorem view_doShutdownKid (a : Nat) (σ : State) (b : Nat) : view (doShutdownKid a σ) b =
    if b = a ∧ (σ.kid a).st.rank < 5 then { view σ b with s := (view σ b).s ++ [.trigger] } else view σ b := by
  unfold doShutdownKid
  have e : AState.shuttingDown.rank = 5 := rfl
  rw [e]
  by_cases h : b = a
  · subst h
    split
    · rename_i h2; rw [if_pos ⟨rfl, h2⟩]; simp [view, qOf_append, msgOf]
    · rename_i h2; rw [if_neg (by simp [h2])]
  · have h' : ¬(b = a ∧ (σ.kid a).st.rank < 5) := fun x => h x.1
    rw [if_neg h']
    split
    · simp [view, qOf_append, msgOf, Ne.symm h]
    · rfl

/-- the response: the request is not active any more -/
def pushRes (a : Nat) (ok : Bool) (σ : State) : State := { push (.kid a (.initRes ok)) σ with iA := upd σ.iA a true }

theorem view_pushRes_self (a : Nat) (ok : Bool) (σ : State) :
    view (pushRes a ok σ) a = { view σ a with s := .initRes ok :: (view σ a).s, iA := true } := by
  simp [pushRes, push, view, qOf_cons, msgOf, upd]

theorem view_pushRes_ne {a b : Nat} (ok : Bool) (σ : State) (h : b ≠ a) : view (pushRes a ok σ) b = view σ b := by
  simp [pushRes, push, view, qOf_cons, msgOf, Ne.symm h, upd, h]

theorem sim_popRes {a : Nat} {ok : Bool} {σ σ' : State}
    (h : VSteps c φ { view σ a with s := .initRes ok :: (view σ a).s, iA := true } (view σ' a))
    (ho : ∀ b, b ≠ a → view σ' b = view σ b) : Sim c φ (pushRes a ok σ) σ' := by
  intro b
  by_cases hb : b = a
  · subst hb; rw [view_pushRes_self]; exact h
  · rw [view_pushRes_ne _ _ hb]; exact .of_eq (ho b hb)

theorem pushRes_failInit (a : Nat) (ok : Bool) (σ : State) : pushRes a ok (failInit c σ) = failInit c (pushRes a ok σ) := by
  cases h : c.root <;> simp [pushRes, push, failInit, h]

theorem pushRes_doShutdownSelf (a : Nat) (ok : Bool) (σ : State) : pushRes a ok (doShutdownSelf c σ) = doShutdownSelf c (pushRes a ok σ) := by
  unfold doShutdownSelf
  have e : (pushRes a ok σ).st = σ.st := rfl
  rw [e]
  split
  · cases h : c.root <;> simp [pushRes, push]
  · rfl

theorem sf_failInit (σ : State) (a : Nat) : (view (failInit c σ) a).sf = true := by rw [view_failInit]

theorem sf_doShutdownSelf (σ : State) (a : Nat) (h : σ.st.rank < 5) : (view (doShutdownSelf c σ) a).sf = true := by
  rw [view_doShutdownSelf, if_pos h]

theorem doShutdownSelf_same (σ : State) : (doShutdownSelf c σ).st = σ.st ∧ (doShutdownSelf c σ).recs = σ.recs ∧
    (doShutdownSelf c σ).kid = σ.kid ∧ (doShutdownSelf c σ).iA = σ.iA ∧ (doShutdownSelf c σ).nx = σ.nx ∧
    (doShutdownSelf c σ).closed = σ.closed := by
  unfold doShutdownSelf
  split <;> exact ⟨rfl, rfl, rfl, rfl, rfl, rfl⟩

theorem sim_onInitErr {a : Nat} {σ σ' : State} (h : onInitErr c a σ = .ok σ') :
    (σ.iA a = false → Sim c φ (pushRes a false σ) σ') ∧ Sim c φ (push (.kid a .initErr) σ) σ' := by
  unfold onInitErr at h
  have vi : ∀ τ : State, τ.iA = σ.iA → σ.iA a = false → (view τ a).iA = false := fun τ e hi => by simp [view, e, hi]
  split at h
  · rename_i hs
    injection h with h; subst h
    have s1 : Sim c φ (pushRes a false σ) (pushRes a false (if σ.initReq = true then failInit c σ else doShutdownSelf c σ)) ∧
        Sim c φ (push (.kid a .initErr) σ) (push (.kid a .initErr) (if σ.initReq = true then failInit c σ else doShutdownSelf c σ)) := by
      split
      · rw [push_failInit, pushRes_failInit]; exact ⟨sim_failInit _, sim_failInit _⟩
      · rw [push_doShutdownSelf, pushRes_doShutdownSelf]; exact ⟨sim_doShutdownSelf _, sim_doShutdownSelf _⟩
    have hsf : (view (if σ.initReq = true then failInit c σ else doShutdownSelf c σ) a).sf = true ∧
        (view (if σ.initReq = true then failInit c σ else doShutdownSelf c σ) a).st = .initializing ∧
        (if σ.initReq = true then failInit c σ else doShutdownSelf c σ).iA = σ.iA := by
      split
      · exact ⟨sf_failInit _ _, hs.1, rfl⟩
      · exact ⟨sf_doShutdownSelf _ _ (by rw [hs.1]; simp [AState.rank]), by rw [← hs.1]; exact (doShutdownSelf_same σ).1, (doShutdownSelf_same σ).2.2.2.1⟩
    generalize (if σ.initReq = true then failInit c σ else doShutdownSelf c σ) = τ at *
    have hiA := vi τ hsf.2.2
    refine ⟨fun hi => s1.1.trans (sim_popRes (.to (.errNo _ _ rfl rfl (.inl ⟨hsf.1, hsf.2.1⟩)) ?_) (fun _ _ => rfl)),
      s1.2.trans (sim_pop1 (.to (.tmoNo _ _ rfl (.inl ⟨hsf.1, hsf.2.1⟩)) rfl) (fun _ _ => rfl))⟩
    rw [← hiA hi]
  · split at h
    · rename_i hr
      injection h with h; subst h
      have s1 := sim_doShutdownSelf (c := c) (φ := φ) (pushRes a false σ)
      have s2 := sim_doShutdownSelf (c := c) (φ := φ) (push (.kid a .initErr) σ)
      rw [← pushRes_doShutdownSelf] at s1
      rw [← push_doShutdownSelf] at s2
      have hd := doShutdownSelf_same (c := c) σ
      have hr' : (view (doShutdownSelf c σ) a).r = none := by simp [view, hd.2.1, hr]
      have hiA := vi (doShutdownSelf c σ) hd.2.2.2.1
      refine ⟨fun hi => s1.trans (sim_popRes (.to (.errNo _ _ rfl rfl (.inr (.inl hr'))) ?_) (fun _ _ => rfl)),
        s2.trans (sim_pop1 (.to (.tmoNo _ _ rfl (.inr (.inl hr'))) rfl) (fun _ _ => rfl))⟩
      rw [← hiA hi]
    · rename_i r hr
      split at h
      · rename_i hact
        injection h with h; subst h
        have hiA := vi σ rfl
        by_cases hk : (σ.kid a).st.rank < 5
        · refine ⟨fun hi => sim_popRes (.to (.errTrig _ _ r rfl rfl hr hact hk) ?_) (fun b hb => ?_), sim_pop1 (.to (.tmoTrig _ _ r rfl hr hact hk) ?_) (fun b hb => ?_)⟩
          · rw [view_doShutdownKid, if_pos ⟨rfl, hk⟩, ← hiA hi]
          · rw [view_doShutdownKid, if_neg (by simp [hb])]
          · rw [view_doShutdownKid, if_pos ⟨rfl, hk⟩]
          · rw [view_doShutdownKid, if_neg (by simp [hb])]
        · have hk' : 5 ≤ (view σ a).k.st.rank := Nat.le_of_not_lt hk
          refine ⟨fun hi => sim_popRes (.to (.errNo _ _ rfl rfl (.inr (.inr hk'))) ?_) (fun b hb => ?_), sim_pop1 (.to (.tmoNo _ _ rfl (.inr (.inr hk'))) ?_) (fun b hb => ?_)⟩
          · rw [view_doShutdownKid, if_neg (by simp [hk]), ← hiA hi]
          · rw [view_doShutdownKid, if_neg (by simp [hb])]
          · rw [view_doShutdownKid, if_neg (by simp [hk])]
          · rw [view_doShutdownKid, if_neg (by simp [hb])]
      · simp at h

theorem fresh_onInitErr {a : Nat} {σ σ' : State} (h : onInitErr c a σ = .ok σ') (hf : Fresh σ) : Fresh σ' := by
  unfold onInitErr at h
  split at h
  · injection h with h; subst h
    split
    · exact fresh_failInit hf
    · exact fresh_doShutdownSelf hf
  · split at h
    · injection h with h; subst h; exact fresh_doShutdownSelf hf
    · rename_i r hr
      split at h
      · injection h with h; subst h
        refine fresh_upd hf ?_ (fresh_lt hf hr) (fun b hb => by rw [view_doShutdownKid, if_neg (by simp [hb])])
        unfold doShutdownKid; split <;> rfl
      · simp at h

theorem sim_onInitOk {a : Nat} {o : Ora} {σ σ' : State} (h : onInitOk c a o σ = .ok σ') (hi : σ.iA a = false) (hf : Fresh σ) (hd : Base φ (pushRes a true σ)) (hl : φ.nl = true → o.late = 0)
    (hk : φ.nj = false) :
    Sim c φ (pushRes a true σ) σ' ∧ Fresh σ' := by
  unfold onInitOk at h
  have hiA : (view σ a).iA = false := hi
  cases hr : σ.recs.find a with
  | none =>
    simp only [hr] at h
    have s1 : Sim c φ (pushRes a true σ) σ := by
      refine sim_popRes (.to (.okNone _ _ rfl rfl hr) ?_) (fun b hb => rfl)
      rw [← hiA]
    split at h
    · injection h with h; subst h; exact ⟨s1, hf⟩
    · exact ⟨s1.trans (sim_initContinue h hf (hd.sim s1) hl), fresh_initContinue h hf⟩
  | some r =>
    simp only [hr] at h
    cases hc : c.sync with
    | true =>
      simp only [hc, if_true] at h
      have s1 : Sim c φ (pushRes a true σ) (σ.setRec a { r with initialized := true }) := by
        refine sim_popRes (.to (.okS _ _ r rfl rfl hr hc hk) ?_) (fun b hb => by rw [view_setRec, if_neg hb])
        rw [view_setRec, if_pos rfl, ← hiA]
      have f1 : Fresh (σ.setRec a { r with initialized := true }) := fresh_setRec hf hr
      split at h
      · injection h with h; subst h; exact ⟨s1, f1⟩
      · exact ⟨s1.trans (sim_initContinue h f1 (hd.sim s1) hl), fresh_initContinue h f1⟩
    | false =>
      simp only [hc, Bool.false_eq_true, if_false] at h
      generalize hτ : ({ σ with recs := σ.recs.set a { r with initialized := true, started := true }, to := upd σ.to a (σ.to a ++ [.start]), nStart := upd σ.nStart a (σ.nStart a + 1) } : State) = τ at h
      have hne : ∀ b, b ≠ a → view τ b = view σ b := fun b hb => by subst hτ; vw
      have s1 : Sim c φ (pushRes a true σ) τ := by
        refine sim_popRes (.to (.okU _ _ r rfl rfl hr hc hk) ?_) hne
        subst hτ; vw
      have f1 : Fresh τ := fresh_upd hf (by subst hτ; rfl) (fresh_lt hf hr) (fun b hb => by rw [hne b hb])
      have hd1 : Base φ τ := hd.sim s1
      split at h
      · injection h with h; subst h; exact ⟨s1, f1⟩
      · exact ⟨s1.trans (sim_initContinue h f1 hd1 hl), fresh_initContinue h f1⟩

theorem sim_onTrigger {a : Nat} {σ σ' : State} (h : onTrigger a σ = .ok σ') (hf : Fresh σ) :
    Sim c φ (push (.kid a .trigger) σ) σ' ∧ Fresh σ' := by
  unfold onTrigger at h
  split at h
  · simp at h
  · rename_i r hr
    split at h
    · simp at h
    · rename_i hn
      injection h with h; subst h
      by_cases ha : asks r = true
      · have ha' : r.act = true ∧ r.shut = .none := by simpa [asks] using ha
        have hne : ∀ b, b ≠ a → view (askKid a r σ) b = view σ b := fun b hb => by
          simp only [askKid, ha, if_true]
          cases hk : (σ.kid a).ireq <;> simp [view, upd, AMap.find_set, hb]
        refine ⟨sim_pop1 (.to (.trigAsk _ _ r rfl hr ha'.1 ha'.2) ?_) hne, fresh_upd hf ?_ (fresh_lt hf hr) (fun b hb => by rw [hne b hb])⟩
        · simp only [askKid, ha, if_true]
          cases hk : (σ.kid a).ireq <;> simp [view, upd, AMap.find_set, hk]
        · simp [askKid, ha]
      · have e : askKid a r σ = σ := by simp [askKid, ha]
        rw [e]
        have hs : r.shut ≠ .none := by
          intro hx
          cases hact : r.act <;> simp [asks, hx, hact] at ha hn
        exact ⟨sim_pop1 (.to (.trigNo _ _ r rfl hr hs) rfl) (fun _ _ => rfl), hf⟩

/-! ### removal -/

theorem nextSpawn_now {cfg : Spawner.Cfg} {i : Spawner.Info} {ab an : Bool} {now : Int}
    (h : (Spawner.nextSpawn cfg i ab an now).2 = .now) :
    (Spawner.nextSpawn cfg i ab an now).1.timer = false ∧ (Spawner.nextSpawn cfg i ab an now).1.active = true := by
  have ht : i.timer = false → (Spawner.checkEscalation cfg i ab).1.timer = false := by
    intro h
    unfold Spawner.checkEscalation
    split
    · split
      · exact h
      · split
        · split
          · exact h
          · split <;> exact h
        · exact h
    · exact h
  unfold Spawner.nextSpawn at h ⊢
  cases hi : i.timer with
  | true => simp [hi] at h
  | false =>
    have ht := ht hi
    simp only [hi, Bool.false_eq_true, if_false] at h ⊢
    generalize Spawner.checkEscalation cfg i ab = e at *
    obtain ⟨i1, esc⟩ := e
    simp only at *
    grind

theorem view_cancelInit (a : Nat) (σ : State) (b : Nat) : view (cancelInit a σ) b =
    if b = a then { view σ b with iA := if (view σ b).k.ireq then false else (view σ b).iA } else view σ b := by
  unfold cancelInit
  by_cases h : b = a
  · subst h
    cases hk : (σ.kid b).ireq <;> simp [view, upd, hk]
  · rw [if_neg h]
    split
    · simp [view, upd, h]
    · rfl

theorem removeRec_view (a : Nat) (r : Rec) (o : Ora) (τ : State) : ∃ r' add, Rem τ.st r' add ∧
    view (removeRec a r o τ) a = { view τ a with r := r', s := (view τ a).s ++ add } ∧
    (∀ b, b ≠ a → view (removeRec a r o τ) b = view τ b) ∧ (removeRec a r o τ).nx = τ.nx ∧ (removeRec a r o τ).st = τ.st := by
  unfold removeRec
  split
  · rename_i hs
    have hst : τ.st.rank ≤ 4 := hs.1
    simp only
    split
    · rename_i hn
      have := nextSpawn_now hn
      exact ⟨some { r with act := false, info := (Spawner.nextSpawn r.cfg r.info o.abnormal o.answer o.now).1 }, [.spawn], .inr (.inl ⟨_, rfl, rfl, this.1, this.2, rfl, hst⟩), by simp [view, AMap.find_set, qOf_append, msgOf], fun b hb => by
        simp [view, AMap.find_set, qOf_append, msgOf, hb, Ne.symm hb], rfl, rfl⟩
    · exact ⟨none, [], .inl ⟨rfl, rfl⟩, by simp [view, AMap.find_erase, qOf_append, msgOf], fun b hb => by
        simp [view, AMap.find_erase, qOf_append, msgOf, hb], rfl, rfl⟩
    · exact ⟨some { r with act := false, info := { (Spawner.nextSpawn r.cfg r.info o.abnormal o.answer o.now).1 with timer := true } }, [], .inr (.inr ⟨_, rfl, rfl, rfl, rfl, hst⟩), by simp [view, AMap.find_set], fun b hb => by
        simp [view, AMap.find_set, hb], rfl, rfl⟩
    · exact ⟨none, [], .inl ⟨rfl, rfl⟩, by simp [view, AMap.find_erase], fun b hb => by
        simp [view, AMap.find_erase, hb], rfl, rfl⟩
  · exact ⟨none, [], .inl ⟨rfl, rfl⟩, by simp [view, AMap.find_erase], fun b hb => by
      simp [view, AMap.find_erase, hb], rfl, rfl⟩

/-- the part of `remove_child` after the record is gone -/
def removeEnd (c : Conf) (o : Ora) (σ1 : State) : Except Err State :=
  if σ1.st = .shuttingDown ∧ othersAlive σ1 = false then
    match shutdownContinue o σ1 with
    | .error e => .error e
    | .ok σ2 => initContinue c o σ2
  else initContinue c o σ1

theorem removeChild_eq {a : Nat} {o : Ora} {σ σ' : State} (h : removeChild c a o σ = .ok σ') : ∃ r, σ.recs.find a = some r ∧ r.act = true ∧
    removeEnd c o (removeRec a r o (cancelInit a (removePolicy c r σ))) = .ok σ' := by
  unfold removeChild at h
  split at h
  · simp at h
  · rename_i r hr
    split at h
    · rename_i ha; exact ⟨r, hr, ha, h⟩
    · simp at h

theorem sim_removeEnd {o : Ora} {σ σ' : State} (h : removeEnd c o σ = .ok σ') (hf : Fresh σ) (hd : Base φ σ) (hl : φ.nl = true → o.late = 0) : Sim c φ σ σ' ∧ Fresh σ' := by
  unfold removeEnd at h
  split at h
  · split at h
    · simp at h
    · rename_i σ2 h2
      have s1 : Sim c φ σ σ2 := sim_shutdownContinue h2
      have f1 := fresh_shutdownContinue h2 hf
      exact ⟨s1.trans (sim_initContinue h f1 (hd.sim s1) hl), fresh_initContinue h f1⟩
  · exact ⟨sim_initContinue h hf hd hl, fresh_initContinue h hf⟩

theorem removePolicy_cases (r : Rec) (σ : State) : removePolicy c r σ = σ ∨ removePolicy c r σ = failInit c σ ∨ removePolicy c r σ = doShutdownSelf c σ := by
  unfold removePolicy
  split
  · split
    · split
      · exact .inr (.inl rfl)
      · exact .inl rfl
    · exact .inr (.inr rfl)
  · exact .inl rfl

theorem removePolicy_congr {r r' : Rec} (h : r'.started = r.started) (σ : State) (a : Nat) :
    removePolicy c r' (σ.setRec a r') = (removePolicy c r σ).setRec a r' := by
  unfold removePolicy
  rw [h]
  have e1 : (σ.setRec a r').st = σ.st := rfl
  have e2 : (σ.setRec a r').initReq = σ.initReq := rfl
  rw [e1, e2]
  split
  · split
    · split
      · rfl
      · rfl
    · unfold doShutdownSelf
      rw [e1]
      split <;> rfl
  · rfl

/-- the shutdown response: the request is not active any more -/
def pushShut (a : Nat) (σ : State) : State := { push (.kid a .shutRes) σ with sA := upd σ.sA a true }

theorem view_pushShut_self (a : Nat) (σ : State) :
    view (pushShut a σ) a = { view σ a with s := .shutRes :: (view σ a).s, sA := true } := by
  simp [pushShut, push, view, qOf_cons, msgOf, upd]

theorem view_pushShut_ne {a b : Nat} (σ : State) (h : b ≠ a) : view (pushShut a σ) b = view σ b := by
  simp [pushShut, push, view, qOf_cons, msgOf, Ne.symm h, upd, h]

theorem sim_popShut {a : Nat} {σ σ' : State}
    (h : VSteps c φ { view σ a with s := .shutRes :: (view σ a).s, sA := true } (view σ' a))
    (ho : ∀ b, b ≠ a → view σ' b = view σ b) : Sim c φ (pushShut a σ) σ' := by
  intro b
  by_cases hb : b = a
  · subst hb; rw [view_pushShut_self]; exact h
  · rw [view_pushShut_ne _ hb]; exact .of_eq (ho b hb)

theorem pushShut_removePolicy (a : Nat) (r : Rec) (σ : State) : Sim c φ (pushShut a σ) (pushShut a (removePolicy c r σ)) := by
  rcases removePolicy_cases (c := c) r σ with e | e | e <;> rw [e]
  · exact .refl _
  · have e : pushShut a (failInit c σ) = failInit c (pushShut a σ) := by cases h : c.root <;> simp [pushShut, push, failInit, h]
    rw [e]; exact sim_failInit _
  · have e : pushShut a (doShutdownSelf c σ) = doShutdownSelf c (pushShut a σ) := by
      unfold doShutdownSelf
      have e : (pushShut a σ).st = σ.st := rfl
      rw [e]
      split
      · cases h : c.root <;> simp [pushShut, push]
      · rfl
    rw [e]; exact sim_doShutdownSelf _

theorem push_removePolicy (m : SMsg) (r : Rec) (σ : State) : Sim c φ (push m σ) (push m (removePolicy c r σ)) := by
  rcases removePolicy_cases (c := c) r σ with e | e | e <;> rw [e]
  · exact .refl _
  · rw [push_failInit]; exact sim_failInit _
  · rw [push_doShutdownSelf]; exact sim_doShutdownSelf _

theorem removePolicy_same (r : Rec) (σ : State) : (removePolicy c r σ).recs = σ.recs ∧ (removePolicy c r σ).sA = σ.sA ∧
    (removePolicy c r σ).st = σ.st ∧ (removePolicy c r σ).kid = σ.kid ∧ (removePolicy c r σ).nx = σ.nx := by
  rcases removePolicy_cases (c := c) r σ with e | e | e <;> rw [e]
  · exact ⟨rfl, rfl, rfl, rfl, rfl⟩
  · exact ⟨rfl, rfl, rfl, rfl, rfl⟩
  · unfold doShutdownSelf; split <;> exact ⟨rfl, rfl, rfl, rfl, rfl⟩

theorem fresh_removePolicy {r : Rec} {σ : State} (hf : Fresh σ) : Fresh (removePolicy c r σ) := by
  rcases removePolicy_cases (c := c) r σ with e | e | e <;> rw [e]
  · exact hf
  · exact fresh_failInit hf
  · exact fresh_doShutdownSelf hf

theorem cancelInit_same (a : Nat) (σ : State) : (cancelInit a σ).st = σ.st ∧ (cancelInit a σ).nx = σ.nx := by
  unfold cancelInit; split <;> exact ⟨rfl, rfl⟩

/-- the record is removed from a state in which it has just been changed to `r'` -/
theorem removed {a : Nat} {r0 : Rec} {o : Ora} {τ : State} (hr : τ.recs.find a = some r0) (r : Rec) (hf : Fresh τ) :
    ∃ r' add, Rem τ.st r' add ∧
    view (removeRec a r o (cancelInit a (τ.setRec a r))) a =
      { view τ a with r := r', s := (view τ a).s ++ add, iA := if (view τ a).k.ireq then false else (view τ a).iA } ∧
    (∀ b, b ≠ a → view (removeRec a r o (cancelInit a (τ.setRec a r))) b = view τ b) ∧
    Fresh (removeRec a r o (cancelInit a (τ.setRec a r))) := by
  obtain ⟨r', add, h1, h2, h3, h4, h5⟩ := removeRec_view a r o (cancelInit a (τ.setRec a r))
  rw [(cancelInit_same _ _).1] at h1
  have hne : ∀ b, b ≠ a → view (removeRec a r o (cancelInit a (τ.setRec a r))) b = view τ b := fun b hb => by
    rw [h3 b hb, view_cancelInit, if_neg hb, view_setRec, if_neg hb]
  refine ⟨r', add, h1, ?_, hne, ?_⟩
  · rw [h2, view_cancelInit, if_pos rfl, view_setRec, if_pos rfl]
  · exact fresh_upd hf (by rw [h4, (cancelInit_same _ _).2]; rfl) (fresh_lt hf hr) (fun b hb => by rw [hne b hb])

theorem setRec_self {τ : State} {a : Nat} {r : Rec} (hr : τ.recs.find a = some r) (b : Nat) : view (τ.setRec a r) b = view τ b := by
  rw [view_setRec]
  split
  · rename_i h; subst h; simp [view, hr]
  · rfl

theorem sim_onUnsub {a : Nat} {o : Ora} {σ σ' : State} (h : removeChild c a o σ = .ok σ') (hf : Fresh σ) (hd : Base φ (push (.kid a .unsub) σ)) (hl : φ.nl = true → o.late = 0)
    (hk : φ.nk = false) :
    Sim c φ (push (.kid a .unsub) σ) σ' ∧ Fresh σ' := by
  obtain ⟨r, hr, ha, h⟩ := removeChild_eq h
  have hp := removePolicy_same (c := c) r σ
  have f1 : Fresh (removePolicy c r σ) := fresh_removePolicy hf
  have s1 : Sim c φ (push (.kid a .unsub) σ) (push (.kid a .unsub) (removePolicy c r σ)) := push_removePolicy _ r σ
  rw [← hp.1] at hr
  generalize removePolicy c r σ = τ at *
  obtain ⟨r', add, h1, h2, h3, h4, h5⟩ := removeRec_view a r o (cancelInit a τ)
  rw [(cancelInit_same _ _).1] at h1
  have hne : ∀ b, b ≠ a → view (removeRec a r o (cancelInit a τ)) b = view τ b := fun b hb => by
    rw [h3 b hb, view_cancelInit, if_neg hb]
  have s2 : Sim c φ (push (.kid a .unsub) τ) (removeRec a r o (cancelInit a τ)) := by
    refine sim_pop1 (.to (.unsubRemove _ _ r r' add rfl hr ha h1 hk) ?_) hne
    rw [h2, view_cancelInit, if_pos rfl]
  have f2 : Fresh (removeRec a r o (cancelInit a τ)) :=
    fresh_upd f1 (by rw [h4, (cancelInit_same _ _).2]) (fresh_lt f1 hr) (fun b hb => by rw [hne b hb])
  have := sim_removeEnd (φ := φ) h f2 (hd.sim (s1.trans s2)) hl
  exact ⟨(s1.trans s2).trans this.1, this.2⟩

theorem sim_continueIf {o : Ora} {σ σ' : State} (h : continueIf o σ = .ok σ') (hf : Fresh σ) : Sim c φ σ σ' ∧ Fresh σ' := by
  unfold continueIf at h
  split at h
  · exact ⟨sim_shutdownContinue h, fresh_shutdownContinue h hf⟩
  · injection h with h; subst h; exact ⟨.refl _, hf⟩

theorem sim_onShutRes {a : Nat} {o : Ora} {σ σ' : State} (h : onShutRes c a o σ = .ok σ') (hs : σ.sA a = false) (hf : Fresh σ) (hd : Base φ (pushShut a σ)) (hl : φ.nl = true → o.late = 0)
    (hk : o.later = false → φ.nk = false) :
    Sim c φ (pushShut a σ) σ' ∧ Fresh σ' := by
  unfold onShutRes at h
  split at h
  · simp at h
  · rename_i r hr
    split at h
    · rename_i ha
      simp only at h
      have hsA : (view σ a).sA = false := hs
      split at h
      · generalize hτ : ({ σ.setRec a { r with shut := .confirmed } with q := (σ.setRec a { r with shut := .confirmed }).q ++ [.kid a .unsub] } : State) = τ at h
        have hne : ∀ b, b ≠ a → view τ b = view σ b := fun b hb => by
          subst hτ; simp [view, State.setRec, AMap.find_set, qOf_append, msgOf, hb, Ne.symm hb]
        have f1 : Fresh τ := fresh_upd hf (by subst hτ; rfl) (fresh_lt hf hr) (fun b hb => by rw [hne b hb])
        have s1 : Sim c φ (pushShut a σ) τ := by
          refine sim_popShut (.to (.shutLater _ _ r rfl rfl hr ha) ?_) hne
          subst hτ; simp [view, State.setRec, AMap.find_set, qOf_append, msgOf, hs]
        have := sim_continueIf (c := c) (φ := φ) h f1
        exact ⟨s1.trans this.1, this.2⟩
      · rename_i hlat
        have hk := hk (by simpa using hlat)
        split at h
        · simp at h
        · rename_i σ2 h2
          obtain ⟨r1, hr1, ha1, h2⟩ := removeChild_eq h2
          have e1 : r1 = { r with shut := .confirmed } := by
            have : (σ.setRec a { r with shut := .confirmed }).recs.find a = some { r with shut := .confirmed } := by
              simp [State.setRec, AMap.find_set]
            rw [this] at hr1; injection hr1 with hr1; exact hr1.symm
          subst e1
          rw [removePolicy_congr (r := r) (r' := { r with shut := .confirmed }) rfl] at h2
          have hp := removePolicy_same (c := c) r σ
          have f1 : Fresh (removePolicy c r σ) := fresh_removePolicy hf
          have s1 : Sim c φ (pushShut a σ) (pushShut a (removePolicy c r σ)) := pushShut_removePolicy a r σ
          rw [← hp.1] at hr
          have hsA : (view (removePolicy c r σ) a).sA = false := by simp [view, hp.2.1, hs]
          generalize removePolicy c r σ = τ at *
          obtain ⟨r', add, q1, q2, q3, q4⟩ := removed (o := o) hr { r with shut := .confirmed } f1
          have s2 : Sim c φ (pushShut a τ) (removeRec a { r with shut := .confirmed } o (cancelInit a (τ.setRec a { r with shut := .confirmed }))) := by
            refine sim_popShut (.to (.shutRemove _ _ r r' add rfl rfl hr ha q1 hk) ?_) q3
            rw [q2, ← hsA]
          have s3 := sim_removeEnd (φ := φ) h2 q4 (hd.sim (s1.trans s2)) hl
          have s4 := sim_continueIf (c := c) (φ := φ) h s3.2
          exact ⟨((s1.trans s2).trans s3.1).trans s4.1, s4.2⟩
    · simp at h

end Verif.Children
