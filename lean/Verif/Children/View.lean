import Verif.Children.Model
/-!
# What the supervisor and one child know of each other

The part of the state that concerns one address, and the small steps it makes. Every operation of the model is a sequence of such
steps for each address (`Verif.Children.Sim`).
-/

namespace Verif.Children
open Verif

/-- restrictions on executions. `nt`: the timer of an init request does not expire after the child has been asked to shut down; `nc`:
no child or spawner is created after the child manager has agreed to the shutdown; `ns`: nor after the shutdown has begun, and no
restart is due or becomes due then; `nl`: no child is created while the plugins are asked for the initialization; `nm`: no child is
created while the supervisor is INITIALIZED; `no`: nor when it is OPERATIONAL; `wn`, `wa`: the other plugins agree always to the initialization, to the shutdown. The
last three describe parts of an execution: `nd`: the shutdown does not begin; `nk`: no child is removed; `nj`: no child is found
initialized -/
structure Fl where
  nt : Bool
  nc : Bool
  ns : Bool
  nl : Bool
  nm : Bool
  no : Bool
  wn : Bool
  wa : Bool
  nd : Bool
  nk : Bool
  nj : Bool

def Fl.any : Fl := ⟨false, false, false, false, false, false, false, false, false, false, false⟩

structure View where
  k : Kid
  r : Option Rec
  /-- the messages to the supervisor: in its queue, and on the way to it -/
  s : List KM
  o : List KM
  /-- the messages to the child -/
  t : List Dn
  iA : Bool
  sA : Bool
  nS : Nat
  nI : Nat
  nT : Nat
  /-- the supervisor: state, INIT reaction of the child manager, the child manager has agreed to the shutdown, failed or wants to be
  shut down, starts -/
  st : AState
  ri : Bool
  cl : Bool
  sf : Bool
  sg : Nat

def msgOf (a : Nat) : SMsg → Option KM
  | .kid b m => if b = a then some m else none
  | _ => none

def qOf (a : Nat) (q : List SMsg) : List KM := q.filterMap (msgOf a)

/-- failed, or wants to be shut down -/
def sfOf (f w : Nat) : Bool := decide (0 < f) || decide (0 < w)

@[simp] theorem sfOf_fail (f w : Nat) : sfOf (f + 1) w = true := by simp [sfOf]
@[simp] theorem sfOf_want (f w : Nat) : sfOf f (w + 1) = true := by simp [sfOf]
@[simp] theorem sfOf_zero : sfOf 0 0 = false := by simp [sfOf]

def view (σ : State) (a : Nat) : View where
  k := σ.kid a
  r := σ.recs.find a
  s := qOf a σ.q
  o := σ.out a
  t := σ.to a
  iA := σ.iA a
  sA := σ.sA a
  nS := σ.nShut a
  nI := σ.nInit a
  nT := σ.nStart a
  st := σ.st
  ri := σ.rInit
  cl := σ.closed
  sf := sfOf σ.initFails σ.wants
  sg := σ.starts

/-- an address that is not in use -/
structure Blank (v : View) : Prop where
  k : v.k = Kid.no
  r : v.r = none
  s : v.s = []
  o : v.o = []
  t : v.t = []
  iA : v.iA = false
  sA : v.sA = false
  nS : v.nS = 0
  nI : v.nI = 0
  nT : v.nT = 0

/-- nothing will come of this record -/
def Rec.dead (r : Rec) : Prop := r.act = false ∧ r.info.timer = false ∧ r.info.active = false

/-- a record without use so far -/
def Rec.unused (r : Rec) : Prop := r.initialized = false ∧ r.started = false ∧ r.shut = .none ∧ r.info.timer = false

/-- the record after `remove_child` and the message the supervisor sends itself -/
def Rem (st : AState) (r' : Option Rec) (add : List KM) : Prop :=
  (r' = none ∧ add = []) ∨
  (∃ x, r' = some x ∧ x.act = false ∧ x.info.timer = false ∧ x.info.active = true ∧ add = [.spawn] ∧ st.rank ≤ 4) ∨
  (∃ x, r' = some x ∧ x.act = false ∧ x.info.timer = true ∧ add = [] ∧ st.rank ≤ 4)

/-- the child is initializing -/
def View.hi (v : View) : Prop := ∃ r, v.r = some r ∧ r.act = true ∧ v.k.st.rank ≤ 2 ∧ r.initialized = false

/-- an instance may be created -/
def View.may (φ : Fl) (v : View) : Prop :=
  (φ.nc = true → v.cl = false) ∧ (φ.ns = true → v.st.rank < 5) ∧ (φ.nm = true → v.st ≠ .initialized) ∧ (φ.no = true → v.st ≠ .operational)

/-- small steps -/
inductive VStep (c : Conf) (φ : Fl) : View → View → Prop
  | fin (v : View) : v.st = .initializing → (φ.nl = true → ¬ v.hi) → VStep c φ v { v with st := .initialized }
  | rOn (v : View) : VStep c φ v { v with ri := true }
  | rOff (v : View) : ¬ v.hi → VStep c φ v { v with ri := false }
  | startU (v : View) : c.sync = false → v.st = .initialized → VStep c φ v { v with st := .operational, sg := v.sg + 1 }
  | startN (v : View) : c.sync = true → v.st = .initialized → v.r = none →
      VStep c φ v { v with st := .operational, sg := v.sg + 1 }
  | startS (v : View) (r : Rec) : c.sync = true → v.st = .initialized → v.r = some r →
      VStep c φ v { v with st := .operational, sg := v.sg + 1, r := some { r with started := true }, t := v.t ++ [.start], nT := v.nT + 1 }
  | down (v : View) : φ.nd = false → v.st.rank < 5 → VStep c φ v { v with st := .shuttingDown }
  | close (v : View) : v.st = .shuttingDown → (∀ r, v.r = some r → r.dead) → VStep c φ v { v with cl := true }
  | finish (v : View) : v.st = .shuttingDown → v.cl = true → VStep c φ v { v with st := .shutDown }
  | fail (v : View) : VStep c φ v { v with sf := true }
  | born (v : View) (r : Rec) : Blank v → v.may φ → r.act = true → r.unused →
      VStep c φ v { v with k := Kid.new, r := some r, s := [.create], ri := if v.st = .initializing then true else v.ri }
  | spawner (v : View) (r : Rec) : Blank v → v.may φ → r.act = false → r.unused →
      r.info.active = true → VStep c φ v { v with r := some r, s := [.spawn] }
  | create (v : View) (s : List KM) (r : Rec) : v.s = .create :: s → v.r = some r →
      VStep c φ v { v with s := s, t := v.t ++ [.initReq], iA := true, nI := v.nI + 1 }
  | moved (v : View) (s : List KM) (r : Rec) : v.s = .spawn :: s → v.r = some r → r.info.active = true →
      v.may φ → VStep c φ v { v with s := s, r := none }
  | idle (v : View) (s : List KM) (r : Rec) : v.s = .spawn :: s → v.r = some r → r.info.active = false → VStep c φ v { v with s := s }
  | threw (v : View) (s : List KM) (r r' : Rec) : v.s = .spawn :: s → v.r = some r → r.info.active = true → r'.act = r.act →
      r'.shut = .none → (r'.info.timer = true ∨ (r'.info.timer = false ∧ r'.info.active = false)) →
      v.may φ → VStep c φ v { v with s := s, r := some r' }
  | okU (v : View) (s : List KM) (r : Rec) : v.s = .initRes true :: s → v.iA = true → v.r = some r → c.sync = false → φ.nj = false →
      VStep c φ v { v with s := s, iA := false, r := some { r with initialized := true, started := true }, t := v.t ++ [.start], nT := v.nT + 1 }
  | okS (v : View) (s : List KM) (r : Rec) : v.s = .initRes true :: s → v.iA = true → v.r = some r → c.sync = true → φ.nj = false →
      VStep c φ v { v with s := s, iA := false, r := some { r with initialized := true } }
  | okNone (v : View) (s : List KM) : v.s = .initRes true :: s → v.iA = true → v.r = none → VStep c φ v { v with s := s, iA := false }
  | errTrig (v : View) (s : List KM) (r : Rec) : v.s = .initRes false :: s → v.iA = true → v.r = some r → r.act = true → v.k.st.rank < 5 →
      VStep c φ v { v with s := s ++ [.trigger], iA := false }
  | errNo (v : View) (s : List KM) : v.s = .initRes false :: s → v.iA = true →
      ((v.sf = true ∧ v.st = .initializing) ∨ v.r = none ∨ 5 ≤ v.k.st.rank) →
      VStep c φ v { v with s := s, iA := false }
  | resDrop (v : View) (ok : Bool) (s : List KM) : v.s = .initRes ok :: s → v.iA = false → VStep c φ v { v with s := s }
  | tmoTrig (v : View) (s : List KM) (r : Rec) : v.s = .initErr :: s → v.r = some r → r.act = true → v.k.st.rank < 5 →
      VStep c φ v { v with s := s ++ [.trigger] }
  | tmoNo (v : View) (s : List KM) : v.s = .initErr :: s → ((v.sf = true ∧ v.st = .initializing) ∨ v.r = none ∨ 5 ≤ v.k.st.rank) →
      VStep c φ v { v with s := s }
  | trigNo (v : View) (s : List KM) (r : Rec) : v.s = .trigger :: s → v.r = some r → r.shut ≠ .none → VStep c φ v { v with s := s }
  | trigAsk (v : View) (s : List KM) (r : Rec) : v.s = .trigger :: s → v.r = some r → r.act = true → r.shut = .none →
      VStep c φ v { v with s := s, r := some { r with shut := .sent }, iA := if v.k.ireq then false else v.iA, t := v.t ++ [.shutReq],
                           sA := true, nS := v.nS + 1 }
  | ask (v : View) (r : Rec) : v.r = some r → r.act = true → r.shut = .none → v.st = .shuttingDown →
      VStep c φ v { v with r := some { r with shut := .sent }, iA := if v.k.ireq then false else v.iA, t := v.t ++ [.shutReq],
                           sA := true, nS := v.nS + 1 }
  | cancel (v : View) (r : Rec) : v.r = some r → r.act = false → r.info.timer = true → v.st = .shuttingDown →
      VStep c φ v { v with r := some { r with info := { r.info with timer := false, active := false } } }
  | shutLater (v : View) (s : List KM) (r : Rec) : v.s = .shutRes :: s → v.sA = true → v.r = some r → r.act = true →
      VStep c φ v { v with s := s ++ [.unsub], sA := false, r := some { r with shut := .confirmed } }
  | shutRemove (v : View) (s : List KM) (r : Rec) (r' : Option Rec) (add : List KM) : v.s = .shutRes :: s → v.sA = true → v.r = some r →
      r.act = true → Rem v.st r' add → φ.nk = false →
      VStep c φ v { v with s := s ++ add, sA := false, r := r', iA := if v.k.ireq then false else v.iA }
  | shutDrop (v : View) (s : List KM) : v.s = .shutRes :: s → v.sA = false → VStep c φ v { v with s := s }
  | unsubRemove (v : View) (s : List KM) (r : Rec) (r' : Option Rec) (add : List KM) : v.s = .unsub :: s → v.r = some r →
      r.act = true → Rem v.st r' add → φ.nk = false → VStep c φ v { v with s := s ++ add, r := r', iA := if v.k.ireq then false else v.iA }
  | fired (v : View) (r : Rec) : v.r = some r → r.info.timer = true → v.st.rank ≤ 4 →
      VStep c φ v { v with r := some { r with info := { r.info with timer := false } }, s := v.s ++ [.spawn] }
  | firedLate (v : View) (r : Rec) : v.r = some r → r.info.timer = true → 5 ≤ v.st.rank → φ.ns = false →
      VStep c φ v { v with r := some { r with info := { r.info with timer := false } } }
  | lost (v : View) (m : KM) (s : List KM) : v.s = m :: s → (v.cl = true ∨ v.st = .shutDown) → VStep c φ v { v with s := s }
  | kLost (v : View) (m : Dn) (t : List Dn) : v.t = m :: t → (v.k.born = false ∨ 5 ≤ v.k.st.rank) → VStep c φ v { v with t := t }
  | kInit (v : View) (t : List Dn) : v.t = .initReq :: t → v.k.born = true → v.k.st ≠ .shutDown →
      VStep c φ v { v with t := t, k := { v.k with ireq := true, asked := true } }
  | kStart (v : View) (t : List Dn) : v.t = .start :: t → v.k.born = true → v.k.st = .initialized →
      VStep c φ v { v with t := t, k := { v.k with st := .operational } }
  | kStartNo (v : View) (t : List Dn) : v.t = .start :: t → v.k.st ≠ .initialized → VStep c φ v { v with t := t }
  | kShut (v : View) (t : List Dn) : v.t = .shutReq :: t → v.k.born = true → v.k.st ≠ .shutDown →
      VStep c φ v { v with t := t, k := { v.k with st := .shuttingDown } }
  | kOk (v : View) : v.k.born = true → v.k.ireq = true → v.k.st = .initializing →
      VStep c φ v { v with k := { v.k with ireq := false, ans := true, st := .initialized }, o := v.o ++ [.initRes true] }
  | kErr (v : View) (keep : Bool) : v.k.born = true → v.k.ireq = true → v.k.st.rank ≤ 5 →
      VStep c φ v { v with k := { v.k with ireq := keep, ans := true }, o := v.o ++ [.initRes false] }
  | kDown (v : View) : v.k.born = true → v.k.st.rank < 5 → VStep c φ v { v with k := { v.k with want := true }, o := v.o ++ [.trigger] }
  | kEnd (v : View) : v.k.born = true → v.k.st = .shuttingDown →
      VStep c φ v { v with k := { v.k with st := .shutDown }, o := v.o ++ [.shutRes] }
  | flush (v : View) (m : KM) (o : List KM) : v.o = m :: o → VStep c φ v { v with s := v.s ++ [m], o := o }
  | tmo (v : View) : v.iA = true → (φ.nt = true → ∃ r, v.r = some r ∧ r.act = true ∧ r.shut = .none) →
      VStep c φ v { v with iA := false, s := v.s ++ [.initErr] }

/-- sequences of small steps -/
inductive VSteps (c : Conf) (φ : Fl) : View → View → Prop
  | refl (v : View) : VSteps c φ v v
  | cons {v w x : View} : VStep c φ v w → VSteps c φ w x → VSteps c φ v x

variable {c : Conf} {φ : Fl}

theorem VSteps.one {v w : View} (h : VStep c φ v w) : VSteps c φ v w := .cons h (.refl _)

theorem VSteps.trans {u v w : View} (h : VSteps c φ u v) (h2 : VSteps c φ v w) : VSteps c φ u w := by
  induction h with
  | refl => exact h2
  | cons a _ ih => exact .cons a (ih h2)

theorem VSteps.keeps {P : View → Prop} (hp : ∀ v w, P v → VStep c φ v w → P w) {v w : View} (h : VSteps c φ v w) (hv : P v) : P w := by
  induction h with
  | refl => exact hv
  | cons a _ ih => exact ih (hp _ _ hv a)

theorem VSteps.to {v w w' : View} (h : VStep c φ v w) (e : w' = w) : VSteps c φ v w' := e ▸ .one h

theorem VSteps.of_eq {v w : View} (e : w = v) : VSteps c φ v w := e ▸ .refl _

theorem view_init (c : Conf) (a : Nat) : view (State.init c) a =
    { k := Kid.no, r := none, s := [], o := [], t := [], iA := false, sA := false, nS := 0, nI := 0, nT := 0, st := .initializing,
      ri := true, cl := false, sf := false, sg := 0 } := by
  cases h : c.root <;> simp [view, State.init, qOf, msgOf, h]

end Verif.Children
