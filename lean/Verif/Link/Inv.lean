import Verif.Link.Sim
/-!
# Invariants of a pair that hold in all executions
-/

namespace Verif.Link
open Verif

/-- the server knows the client as linked -/
def linkedQ (q : Option CPh) : Prop := q = some .operational ∨ ∃ u, q = some (.unlinking u)

/-- the server is shutting down and no confirmation is in transit -/
def Late (v : View) : Prop := 5 ≤ v.ss.rank ∧ ∀ rid, .linkRes rid true ∉ v.dn

def isU : Dn → Bool
  | .unlinkReq _ => true
  | _ => false

def isT : Dn → Bool
  | .linkRes _ true => true
  | _ => false

def noURes (up : List Up) : Prop := ∀ u, .unlinkRes u ∉ up

structure H (v : View) : Prop where
  fup : ∀ rid op, .linkReq rid op ∈ v.up → rid < v.nx
  fdn : ∀ rid ok, .linkRes rid ok ∈ v.dn → rid < v.nx
  fq : ∀ rid op, v.q = some (.pending rid op) → rid < v.nx
  ntf : .notify ∈ v.up → 5 ≤ v.cs.rank ∧ v.r = none
  ures : ∀ u, .unlinkRes u ∈ v.up → Late v
  ord : v.dn.Pairwise (fun a b => isU a = true → isT b = false)
  udn : ∀ u, .unlinkReq u ∈ v.dn → 5 ≤ v.ss.rank
  uqL : v.uq ≠ none → Late v
  keptL : v.kept ≠ [] → Late v
  rop : v.r = some .operational → linkedQ v.q ∧ noURes v.up
  act : ∀ rid, .linkRes rid true ∈ v.dn → rid ∈ v.lreq → (linkedQ v.q ∧ noURes v.up) ∨ (5 ≤ v.cs.rank ∧ v.r = none)
  left : v.cLeft = true → v.r = none ∧ 5 ≤ v.cs.rank
  cclosed : v.cClosed = true → v.cLeft = true
  sclosed : v.sClosed = true → v.q = none ∧ 5 ≤ v.ss.rank
  dfc : v.deafC = true → v.cClosed = true
  dfs : v.deafS = true → v.sClosed = true
  ur : v.ureq = [] ∨ ∃ u, v.q = some (.unlinking u) ∧ v.ureq = [u]
  pend : ∀ rid op, v.q = some (.pending rid op) → v.ss ≠ .operational
  down : v.ss = .shutDown → v.sClosed = true
  downC : v.cs = .shutDown → v.cClosed = true

/-- an unlink request that arrives is behind all confirmations -/
theorem late_of_head {v : View} (h : H v) {u : Nat} {t : List Dn} (e : v.dn = .unlinkReq u :: t) : 5 ≤ v.ss.rank ∧
    ∀ rid, Dn.linkRes rid true ∉ t := by
  refine ⟨h.udn u (by simp [e]), fun rid hm => ?_⟩
  have := h.ord
  rw [e, List.pairwise_cons] at this
  have := this.1 _ hm
  simp [isU, isT] at this

theorem ord_snoc_true {d : List Dn} {rid : Nat} (ho : d.Pairwise (fun a b => isU a = true → isT b = false))
    (hn : ∀ u, .unlinkReq u ∉ d) : (d ++ [Dn.linkRes rid true]).Pairwise (fun a b => isU a = true → isT b = false) := by
  rw [List.pairwise_append]
  refine ⟨ho, by simp, fun a ha b hb hu => ?_⟩
  cases a with
  | linkRes r k => simp [isU] at hu
  | unlinkReq u => exact absurd ha (hn u)

theorem H.start {v : View} (h : H v) (cs' : AState) (hc : v.cs.rank ≤ cs'.rank) (hd : cs' = .shutDown → v.cs = cs')
    (hs : v.ss = .initialized) :
    H { v with cs := cs', ss := .operational, q := startQ v.q, dn := startDn v.q v.dn, hist := startHist v.q v.hist } := by
  have hl : ¬ 5 ≤ v.ss.rank := by rw [hs]; simp [AState.rank]
  have hu : ∀ u, .unlinkReq u ∉ v.dn := fun u hm => hl (h.udn u hm)
  have hno : noURes v.up := fun u hm => hl (h.ures u hm).1
  have hq : v.sClosed = false := by
    cases e : v.sClosed with
    | false => rfl
    | true => exact absurd (h.sclosed e).2 hl
  have hds : v.deafS = false := by
    cases e : v.deafS with
    | false => rfl
    | true => exact absurd (h.dfs e) (by simp [hq])
  have hk : v.kept = [] := by
    cases e : v.kept with
    | nil => rfl
    | cons a l => exact absurd (h.keptL (by simp [e])).1 hl
  have huq : v.uq = none := by
    cases e : v.uq with
    | none => rfl
    | some a => exact absurd (h.uqL (by simp [e])).1 hl
  have hcs : 5 ≤ v.cs.rank → 5 ≤ cs'.rank := fun h => Nat.le_trans h hc
  have hdc : cs' = .shutDown → v.cClosed = true := fun e => h.downC ((hd e).trans e)
  have hop : v.r = some .operational → linkedQ (startQ v.q) := by
    intro hr
    rcases (h.rop hr).1 with e | ⟨u, e⟩
    · rw [e]; exact .inl rfl
    · rw [e]; exact .inr ⟨u, rfl⟩
  cases e : v.q with
  | none =>
    have ha := h.act
    simp only [linkedQ, e] at ha
    constructor <;> simp only [startQ, startDn, hq, hk, huq, hds] <;> try (first | exact h.fup | exact h.fdn | exact h.ord)
    all_goals try simp
    · intro hm; exact ⟨hcs (h.ntf hm).1, (h.ntf hm).2⟩
    · intro u hm; exact absurd hm (hno u)
    · intro u hm; exact absurd hm (hu u)
    · intro hr; have := hop hr; rw [e] at this; exact ⟨this, hno⟩
    · intro rid h1 h2; rcases ha rid h1 h2 with h3 | h3
      · simp at h3
      · exact .inr ⟨hcs h3.1, h3.2⟩
    · intro hr; exact ⟨(h.left hr).1, hcs (h.left hr).2⟩
    · exact h.cclosed
    · exact h.dfc
    · have := h.ur; simpa [e] using this
    · exact hdc
  | some p =>
    have hfq := h.fq
    have ha := h.act
    simp only [e] at ha
    cases p with
    | pending rid op =>
      constructor <;> simp only [startQ, startDn, hq, hk, huq, hds] <;> try (first | exact h.fup | exact h.fdn | exact h.ord)
      all_goals try simp
      · intro r
        refine ⟨h.fdn r false, fun hm => ?_⟩
        rcases hm with hm | hm
        · exact h.fdn r true hm
        · rw [hm]; exact hfq rid op e
      · intro hm; exact ⟨hcs (h.ntf hm).1, (h.ntf hm).2⟩
      · intro u hm; exact absurd hm (hno u)
      · exact ord_snoc_true h.ord hu
      · intro u hm; exact absurd hm (hu u)
      · intro hr; exact ⟨.inl rfl, hno⟩
      · intro r h1 h2; exact .inl ⟨.inl rfl, hno⟩
      · intro hr; exact ⟨(h.left hr).1, hcs (h.left hr).2⟩
      · exact h.cclosed
      · exact h.dfc
      · have := h.ur; simpa [e] using this
      · exact hdc
    | operational =>
      constructor <;> simp only [startQ, startDn, hq, hk, huq, hds] <;> try (first | exact h.fup | exact h.fdn | exact h.ord)
      all_goals try simp
      · intro hm; exact ⟨hcs (h.ntf hm).1, (h.ntf hm).2⟩
      · intro u hm; exact absurd hm (hno u)
      · intro u hm; exact absurd hm (hu u)
      · intro hr; exact ⟨.inl rfl, hno⟩
      · intro r h1 h2; exact .inl ⟨.inl rfl, hno⟩
      · intro hr; exact ⟨(h.left hr).1, hcs (h.left hr).2⟩
      · exact h.cclosed
      · exact h.dfc
      · have := h.ur; simpa [e] using this
      · exact hdc
    | unlinking u =>
      constructor <;> simp only [startQ, startDn, hq, hk, huq, hds] <;> try (first | exact h.fup | exact h.fdn | exact h.ord)
      all_goals try simp
      · intro hm; exact ⟨hcs (h.ntf hm).1, (h.ntf hm).2⟩
      · intro u hm; exact absurd hm (hno u)
      · intro u hm; exact absurd hm (hu u)
      · intro hr; exact ⟨.inr ⟨u, rfl⟩, hno⟩
      · intro r h1 h2; exact .inl ⟨.inr ⟨u, rfl⟩, hno⟩
      · intro hr; exact ⟨(h.left hr).1, hcs (h.left hr).2⟩
      · exact h.cclosed
      · exact h.dfc
      · have := h.ur; simpa [e] using this
      · exact hdc

set_option maxHeartbeats 1000000 in
theorem H.step {φ : Fl} {v w : View} (h : H v) (st : VStep φ v w) : H w := by
  have hh := h
  obtain ⟨fup, fdn, fq, ntf, ures, ord, udn, uqL, keptL, rop, act, left, cclosed, sclosed, dfc, dfs, ur, pend, down, downC⟩ := h
  cases st
  case start cs' h1 h2 _ h3 => exact hh.start cs' h1 h2 h3
  case accept rid op t h1 h2 h3 h4 =>
    have hu : ∀ u, .unlinkReq u ∉ v.dn := fun u hm => by have := udn u hm; omega
    have := ord_snoc_true (rid := rid) ord hu
    constructor <;> simp only [Late, linkedQ, noURes] at * <;> grind
  case urKeep u t e =>
    have := late_of_head hh e
    constructor <;> simp only [Late, linkedQ, noURes] at * <;> grind
  case urQueue u t e hr =>
    have := late_of_head hh e
    constructor <;> simp only [Late, linkedQ, noURes] at * <;> grind
  case unkeep k hk hr =>
    have hk' : k ≠ [] → v.kept ≠ [] := by
      intro h
      obtain ⟨a, ha⟩ := List.exists_mem_of_ne_nil _ h
      exact List.ne_nil_of_mem (hk a ha)
    constructor <;> simp only [Late, linkedQ, noURes] at * <;> grind
  all_goals
    constructor <;> (first | exact fup | exact fdn | exact fq | exact ntf | exact ures | exact ord | exact udn | exact uqL | exact keptL | exact rop | exact act | exact left | exact cclosed | exact sclosed | exact dfc | exact dfs | exact ur | exact pend | exact down | exact downC | skip)
  all_goals
    simp only [Late, linkedQ, noURes] at * <;>
      grind [AState.rank, List.mem_of_mem_erase, leaveL, isU, isT]

theorem H.steps {φ : Fl} {v w : View} (h : H v) (st : VSteps φ v w) : H w := st.keeps (P := H) (fun _ _ a b => a.step b) h

theorem J.step {φ : Fl} {v w : View} (h : J v) (st : VStep φ v w) : J w := by
  obtain ⟨h1, h2, h3⟩ := h
  cases st <;> constructor <;> simp only [stMove] at * <;> grind [AState.rank]

theorem J.steps {φ : Fl} {v w : View} (h : J v) (st : VSteps φ v w) : J w := st.keeps (P := J) (fun _ _ a b => a.step b) h

end Verif.Link
