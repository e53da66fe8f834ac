import Verif.Link.Model
/-!
# What a client and a server know of each other

The part of the state that concerns one client and one server, and the small steps it makes. Every operation of the model is a
sequence of such steps for each pair (`Verif.Link.Sim`).
-/

namespace Verif.Link
open Verif

/-- restrictions on executions. `rl`: a link is not asked for again while an unlink request of the server is in the queue of the
client; `nt`: no timer expires; `nl`: the plugins behind the link client do not ask for links while they are asked whether they
are initialized; `ag`: they always agree to
the shutdown; `wi`: and to the initialization -/
structure Fl where
  rl : Bool
  nt : Bool
  nl : Bool
  ag : Bool
  wi : Bool

/-- no restriction -/
def Fl.any : Fl := ⟨false, false, false, false, false⟩

/-- the pair of a client and a server -/
structure View where
  /-- the server's record of the client -/
  q : Option CPh
  /-- the client's record of the server -/
  r : Option SPh
  up : List Up
  dn : List Dn
  lreq : List Nat
  ureq : List Nat
  ltmo : List Nat
  utmo : List Nat
  hist : List PEv
  /-- the unlink request in the client's queue -/
  uq : Option Nat
  /-- the unlink requests the client's user keeps -/
  kept : List Nat
  ss : AState
  cs : AState
  cLeft : Bool
  cClosed : Bool
  sClosed : Bool
  deafC : Bool
  deafS : Bool
  /-- the client has got its init request, keeps it, has answered it with success; INIT reaction -/
  ia : Bool
  ir : Bool
  ok : Bool
  ri : Bool
  /-- answers to it -/
  ni : Nat
  nx : Nat

def keptOf (s : Nat) (l : List (Nat × Nat)) : List Nat := (l.filter (fun p => p.1 = s)).map (·.2)

def view (σ : State) (c s : Nat) : View where
  q := (σ.act s).clients.find c
  r := (σ.act c).servers.find s
  up := σ.up c s
  dn := σ.dn s c
  lreq := σ.lreq c s
  ureq := σ.ureq s c
  ltmo := σ.ltmo c s
  utmo := σ.utmo s c
  hist := σ.hist c s
  uq := (σ.act c).unlinkQ.find s
  kept := keptOf s (σ.act c).kept
  ss := (σ.act s).st
  cs := (σ.act c).st
  cLeft := !(σ.act c).rClient
  cClosed := (σ.act c).closed
  sClosed := (σ.act s).closed
  deafC := (σ.act c).deafC
  deafS := (σ.act s).deafS
  ia := (σ.act c).asked
  ir := (σ.act c).initReq
  ok := (σ.act c).inits.contains true
  ri := (σ.act c).rInit
  ni := (σ.act c).inits.length
  nx := σ.nx

/-- effect of `handle_start` on the record of one client -/
def startQ : Option CPh → Option CPh
  | some (.pending _ _) => some .operational
  | q => q

def startDn : Option CPh → List Dn → List Dn
  | some (.pending rid _), d => d ++ [.linkRes rid true]
  | _, d => d

def startHist : Option CPh → List PEv → List PEv
  | some (.pending rid op), h => .answered rid true op .operational :: h
  | _, h => h

def leaveL : Option SPh → List Nat → List Nat
  | some (.linking rid), l => l.erase rid
  | _, l => l

/-- how the state of the client may change by itself -/
def stMove (a b : AState) : Prop := b = a ∨ 5 ≤ b.rank ∨ (a = .initialized ∧ b = .operational)

/-- small steps -/
inductive VStep (φ : Fl) : View → View → Prop
  | nx (v : View) (n : Nat) : v.nx ≤ n → VStep φ v { v with nx := n }
  | ask (v : View) (op : Bool) : v.cs.rank ≤ 4 → v.r = none → (φ.rl = true → v.uq = none) → v.ia = true →
      (v.cs = .initializing → v.ir = true) →
      VStep φ v { v with r := some (.linking v.nx), up := v.up ++ [.linkReq v.nx op], lreq := v.nx :: v.lreq,
                             hist := .asked v.nx v.cs :: v.hist, ri := true, nx := v.nx + 1 }
  | begin (v : View) : v.ia = false → VStep φ v { v with ia := true, ir := true }
  | irOff (v : View) : v.ir = true → VStep φ v { v with ir := false, ni := v.ni + 1 }
  | riOn (v : View) : VStep φ v { v with ri := true }
  | riOff (v : View) : (v.ri = true → ∀ rid, v.r ≠ some (.linking rid)) → VStep φ v { v with ri := false }
  | succeed (v : View) : v.ir = true → v.cs = .initializing → (φ.nl = true → v.ri = false) →
      VStep φ v { v with ir := false, ok := true, ni := v.ni + 1, cs := .initialized }
  | st (v : View) (cs' ss' : AState) : v.cs.rank ≤ cs'.rank → v.ss.rank ≤ ss'.rank → (ss' = .operational → v.ss = ss') →
      (cs' = .shutDown → v.cs = cs') → (ss' = .shutDown → v.ss = ss') → stMove v.cs cs' →
      VStep φ v { v with cs := cs', ss := ss' }
  | start (v : View) (cs' : AState) : v.cs.rank ≤ cs'.rank → (cs' = .shutDown → v.cs = cs') → stMove v.cs cs' → v.ss = .initialized →
      VStep φ v { v with cs := cs', ss := .operational, q := startQ v.q, dn := startDn v.q v.dn, hist := startHist v.q v.hist }
  | resDrop (v : View) (rid : Nat) (ok : Bool) (t : List Dn) : v.dn = .linkRes rid ok :: t → rid ∉ v.lreq →
      VStep φ v { v with dn := t }
  | resDeaf (v : View) (rid : Nat) (ok : Bool) (t : List Dn) : v.dn = .linkRes rid ok :: t → v.deafC = true →
      VStep φ v { v with dn := t, lreq := v.lreq.erase rid }
  | resOk (v : View) (rid : Nat) (t : List Dn) : v.dn = .linkRes rid true :: t → rid ∈ v.lreq → v.r ≠ none →
      VStep φ v { v with dn := t, lreq := v.lreq.erase rid, r := some .operational, hist := .known rid true :: v.hist }
  | resErr (v : View) (rid : Nat) (t : List Dn) : v.dn = .linkRes rid false :: t → rid ∈ v.lreq → v.r ≠ none → v.ir = false →
      VStep φ v { v with dn := t, lreq := v.lreq.erase rid, r := none, hist := .known rid false :: v.hist }
  | tmoErr (v : View) (rid : Nat) (t : List Nat) : v.ltmo = rid :: t → v.r ≠ none → v.ir = false →
      VStep φ v { v with ltmo := t, r := none, hist := .known rid false :: v.hist }
  | tmoDeaf (v : View) (rid : Nat) (t : List Nat) : v.ltmo = rid :: t → v.deafC = true → VStep φ v { v with ltmo := t }
  | urIgnore (v : View) (u : Nat) (t : List Dn) : v.dn = .unlinkReq u :: t → (v.r = none ∨ v.deafC = true) →
      VStep φ v { v with dn := t }
  | urKeep (v : View) (u : Nat) (t : List Dn) : v.dn = .unlinkReq u :: t → VStep φ v { v with dn := t, kept := v.kept ++ [u] }
  | urQueue (v : View) (u : Nat) (t : List Dn) : v.dn = .unlinkReq u :: t → v.r ≠ none →
      VStep φ v { v with dn := t, uq := v.uq.or (some u) }
  | unkeep (v : View) (k : List Nat) : (∀ u, u ∈ k → u ∈ v.kept) → (v.r = none) → VStep φ v { v with kept := k }
  | keepQueue (v : View) (u : Nat) (k : List Nat) : (∀ u, u ∈ k → u ∈ v.kept) → u ∈ v.kept → v.r ≠ none →
      VStep φ v { v with kept := k, uq := v.uq.or (some u) }
  | unlink (v : View) (u : Nat) : v.uq = some u → v.r ≠ none →
      VStep φ v { v with r := none, up := v.up ++ [.unlinkRes u], hist := .unlinked u :: v.hist }
  | leave (v : View) : v.r ≠ none → v.cs = .shuttingDown → (∀ rid, v.r = some (.linking rid) → rid ∈ v.lreq) →
      VStep φ v { v with r := none, up := v.up ++ [.notify], lreq := leaveL v.r v.lreq, hist := .left :: v.hist }
  | notifyS (v : View) : v.q = some .operational → v.ss = .shuttingDown →
      VStep φ v { v with q := some (.unlinking v.nx), dn := v.dn ++ [.unlinkReq v.nx], ureq := v.nx :: v.ureq,
                             hist := .unlinkAsked v.nx :: v.hist, nx := v.nx + 1 }
  | lost (v : View) (rid : Nat) (op : Bool) (t : List Up) : v.up = .linkReq rid op :: t → v.deafS = true →
      VStep φ v { v with up := t, hist := .lost rid :: v.hist }
  | refuse (v : View) (rid : Nat) (op : Bool) (t : List Up) : v.up = .linkReq rid op :: t → (4 < v.ss.rank ∨ v.q ≠ none) →
      VStep φ v { v with up := t, dn := v.dn ++ [.linkRes rid false], hist := .answered rid false op v.ss :: v.hist }
  | queue (v : View) (rid : Nat) (t : List Up) : v.up = .linkReq rid true :: t → v.ss.rank < 4 → v.q = none →
      VStep φ v { v with up := t, q := some (.pending rid true), hist := .queued rid :: v.hist }
  | accept (v : View) (rid : Nat) (op : Bool) (t : List Up) : v.up = .linkReq rid op :: t → v.ss.rank ≤ 4 →
      (op = true → v.ss = .operational) → v.q = none →
      VStep φ v { v with up := t, q := some .operational, dn := v.dn ++ [.linkRes rid true],
                             hist := .answered rid true op v.ss :: v.hist }
  | ures (v : View) (u : Nat) (t : List Up) : v.up = .unlinkRes u :: t → u ∈ v.ureq → v.q ≠ none →
      VStep φ v { v with up := t, ureq := v.ureq.erase u, q := none, hist := .freed :: v.hist }
  | uresDrop (v : View) (u : Nat) (t : List Up) : v.up = .unlinkRes u :: t → u ∉ v.ureq → VStep φ v { v with up := t }
  | uresDeaf (v : View) (u : Nat) (t : List Up) : v.up = .unlinkRes u :: t → v.deafS = true →
      VStep φ v { v with up := t, ureq := v.ureq.erase u }
  | ntfDrop (v : View) (t : List Up) : v.up = .notify :: t → (v.q = none ∨ v.deafS = true) → VStep φ v { v with up := t }
  | ntfOp (v : View) (t : List Up) : v.up = .notify :: t → v.q = some .operational →
      VStep φ v { v with up := t, q := none, hist := .freed :: v.hist }
  | ntfPend (v : View) (rid : Nat) (op : Bool) (t : List Up) : v.up = .notify :: t → v.q = some (.pending rid op) →
      VStep φ v { v with up := t, q := none, hist := .freed :: .withdrawn rid :: v.hist }
  | ntfUnl (v : View) (u : Nat) (t : List Up) : v.up = .notify :: t → v.q = some (.unlinking u) → u ∈ v.ureq →
      VStep φ v { v with up := t, ureq := v.ureq.erase u, q := none, hist := .freed :: v.hist }
  | tmoL (v : View) (rid : Nat) : φ.nt = false → rid ∈ v.lreq →
      VStep φ v { v with lreq := v.lreq.erase rid, ltmo := v.ltmo ++ [rid] }
  | tmoU (v : View) (u : Nat) : φ.nt = false → u ∈ v.ureq → VStep φ v { v with ureq := v.ureq.erase u, utmo := v.utmo ++ [u] }
  | utmo (v : View) (u : Nat) (t : List Nat) : v.utmo = u :: t → VStep φ v { v with utmo := t }
  | setLeft (v : View) : v.r = none → v.cs = .shuttingDown → VStep φ v { v with cLeft := true }
  | setClosedC (v : View) : v.cLeft = true → v.cs = .shuttingDown → VStep φ v { v with cClosed := true }
  | setClosedS (v : View) : v.q = none → v.ss = .shuttingDown → VStep φ v { v with sClosed := true }
  | setDeafC (v : View) : v.cClosed = true → VStep φ v { v with deafC := true }
  | setDeafS (v : View) : v.sClosed = true → VStep φ v { v with deafS := true }
  | finC (v : View) : v.cClosed = true → v.deafC = true → VStep φ v { v with cs := .shutDown, lreq := [] }
  | finS (v : View) : v.sClosed = true → v.deafS = true → VStep φ v { v with ss := .shutDown, ureq := [] }

/-- sequences of small steps -/
inductive VSteps (φ : Fl) : View → View → Prop
  | refl (v : View) : VSteps φ v v
  | cons {v w x : View} : VStep φ v w → VSteps φ w x → VSteps φ v x

theorem VSteps.one {φ : Fl} {v w : View} (h : VStep φ v w) : VSteps φ v w := .cons h (.refl _)

theorem VSteps.trans {φ : Fl} {u v w : View} (h : VSteps φ u v) (h2 : VSteps φ v w) : VSteps φ u w := by
  induction h with
  | refl => exact h2
  | cons a _ ih => exact .cons a (ih h2)

theorem VSteps.keeps {φ : Fl} {P : View → Prop} (hp : ∀ v w, P v → VStep φ v w → P w) {v w : View} (h : VSteps φ v w)
    (hv : P v) : P w := by
  induction h with
  | refl => exact hv
  | cons a _ ih => exact ih (hp _ _ hv a)

theorem view_init (c s : Nat) : view State.init c s =
    { q := none, r := none, up := [], dn := [], lreq := [], ureq := [], ltmo := [], utmo := [], hist := [], uq := none, kept := [],
      ss := .initializing, cs := .initializing, cLeft := false, cClosed := false, sClosed := false, deafC := false, deafS := false,
      ia := false, ir := false, ok := false, ri := true, ni := 0, nx := 0 } := by
  simp [view, State.init, Actor.init, AMap.find, keptOf]

end Verif.Link
