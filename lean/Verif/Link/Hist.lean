import Verif.Link.Inv
import Verif.Link.Spec
/-!
# The histories of the model satisfy the rules
-/

namespace Verif.Link
open Verif

def absQ : Option CPh → Option (Option Nat)
  | none => none
  | some (.pending rid _) => some (some rid)
  | some _ => some none

def isReq (rid : Nat) : Up → Bool
  | .linkReq r _ => r == rid
  | _ => false

/-- the request that is kept -/
def pendOf (rid : Nat) : Option CPh → Nat
  | some (.pending r _) => if r = rid then 1 else 0
  | _ => 0

structure M (v : View) : Prop where
  cons : ∀ rid, v.up.countP (isReq rid) + pendOf rid v.q + v.hist.countP (isAns rid) + v.hist.countP (isGone rid) =
    v.hist.countP (isAsk rid)
  one : ∀ rid, v.hist.countP (isAsk rid) ≤ if rid < v.nx then 1 else 0
  kn : ∀ rid, v.hist.countP (isKnown rid) + v.lreq.count rid + v.ltmo.count rid ≤ v.hist.countP (isAsk rid)
  dnA : ∀ rid ok, .linkRes rid ok ∈ v.dn → ∃ op st, .answered rid ok op st ∈ v.hist
  srv : srvRec v.hist = absQ v.q
  cli : cliLinked v.hist = decide (v.r = some .operational)
  ua : ∀ u, .unlinkAsked u ∈ v.hist → 5 ≤ v.ss.rank ∧ v.q ≠ some .operational
  udn : ∀ u, .unlinkReq u ∈ v.dn → .unlinkAsked u ∈ v.hist
  uq : ∀ u, v.uq = some u → .unlinkAsked u ∈ v.hist
  kept : ∀ u, u ∈ v.kept → .unlinkAsked u ∈ v.hist
  ures : ∀ u, .unlinkRes u ∈ v.up → .unlinked u ∈ v.hist
  ntf : .notify ∈ v.up → .left ∈ v.hist
  qu : ∀ u, v.q = some (.unlinking u) → .unlinkAsked u ∈ v.hist
  legal : Legal v.hist

theorem M.start {v : View} (hh : H v) (h : M v) (cs' : AState) (hs : v.ss = .initialized) :
    M { v with cs := cs', ss := .operational, q := startQ v.q, dn := startDn v.q v.dn, hist := startHist v.q v.hist } := by
  have hl : ¬ 5 ≤ v.ss.rank := by rw [hs]; simp [AState.rank]
  have hua : ∀ u, .unlinkAsked u ∉ v.hist := fun u hm => hl (h.ua u hm).1
  have key : ∀ q, v.q = q →
      M { v with cs := cs', ss := .operational, q := q } := by
    intro q e
    have he : { v with cs := cs', ss := .operational, q := q } = { v with cs := cs', ss := .operational } := by rw [← e]
    rw [he]
    exact { cons := h.cons, one := h.one, kn := h.kn, dnA := h.dnA, srv := h.srv, cli := h.cli, ua := fun u hm => absurd hm (hua u),
            udn := h.udn, uq := h.uq, kept := h.kept, ures := h.ures, ntf := h.ntf, qu := h.qu, legal := h.legal }
  cases e : v.q with
  | none => exact key none e
  | some p =>
    cases p with
    | operational => exact key _ e
    | unlinking u => exact key _ e
    | pending rid op =>
      simp only [startQ, startDn, startHist]
      have hsrv := h.srv
      rw [e] at hsrv
      simp only [absQ] at hsrv
      constructor
      · intro r
        have := h.cons r
        rw [e] at this
        simp only [pendOf, List.countP_cons, isAns, isGone, isAsk] at this ⊢
        by_cases hr : rid = r
        · simp [hr] at this ⊢; omega
        · simp [hr] at this ⊢; omega
      · intro r; have := h.one r; simpa [List.countP_cons, isAsk] using this
      · intro r; have := h.kn r; simpa [List.countP_cons, isAsk, isKnown] using this
      · intro r k hm
        simp only [List.mem_append, List.mem_singleton, Dn.linkRes.injEq] at hm
        rcases hm with hm | ⟨rfl, rfl⟩
        · obtain ⟨o, s, hm⟩ := h.dnA r k hm
          exact ⟨o, s, List.mem_cons_of_mem _ hm⟩
        · exact ⟨op, .operational, by simp⟩
      · simp [srvRec, absQ]
      · simpa [cliLinked] using h.cli
      · intro u hm; simp at hm; exact absurd hm (hua u)
      · intro u hm; simp at hm; exact absurd (hh.udn u hm) hl
      · intro u hm; exact List.mem_cons_of_mem _ (h.uq u hm)
      · intro u hm; exact List.mem_cons_of_mem _ (h.kept u hm)
      · intro u hm; exact List.mem_cons_of_mem _ (h.ures u hm)
      · intro hm; exact List.mem_cons_of_mem _ (h.ntf hm)
      · intro u hm; simp at hm
      · refine ⟨⟨by simp [AState.rank], fun _ => rfl, .inr hsrv⟩, h.legal⟩

theorem or_some {a : Option Nat} {u w : Nat} (h : a.or (some u) = some w) : a = some w ∨ w = u := by
  cases a with
  | none => simp at h; exact .inr h.symm
  | some b => simp at h; exact .inl (by rw [h])

theorem count_leaveL (r : Option SPh) (l : List Nat) (x : Nat) : (leaveL r l).count x ≤ l.count x := by
  unfold leaveL
  split
  · rw [List.count_erase]; split <;> omega
  · exact Nat.le_refl _

theorem absQ_ne {q : Option CPh} : absQ q ≠ none ↔ q ≠ none := by
  cases q with
  | none => simp [absQ]
  | some p => cases p <;> simp [absQ]

set_option maxHeartbeats 1000000 in
theorem M.step {φ : Fl} {v w : View} (hh : H v) (h : M v) (st : VStep φ v w) : M w := by
  have hM := h
  obtain ⟨cons, one, kn, dnA, srv, cli, ua, udn, uq, kept, ures, ntf, qu, legal⟩ := h
  cases st
  case start cs' h1 h2 _ h3 => exact hM.start hh cs' h3
  case urQueue u t e hr =>
    refine { hM with dnA := fun r k hm => dnA r k (by simp [e, hm]), udn := fun u hm => udn u (by simp [e, hm]), uq := fun w hw => ?_ }
    rcases or_some hw with h | rfl
    · exact uq w h
    · exact udn w (by simp [e])
  case keepQueue u k h1 h2 h3 =>
    refine { hM with kept := fun u hu => kept u (h1 u hu), uq := fun w hw => ?_ }
    rcases or_some hw with h | rfl
    · exact uq w h
    · exact kept w h2
  case leave h1 h2 h3 =>
    have hc := count_leaveL v.r v.lreq
    constructor
    case kn =>
      intro rid
      have h1 := kn rid
      have h2 := hc rid
      simp only [List.countP_cons, isKnown, isAsk]
      simp; omega
    all_goals first | exact one | exact legal |
      grind [isReq, isAsk, isAns, isGone, isKnown, srvRec, cliLinked, Rule, Legal, List.countP_cons, List.countP_append]
  case lost rid op t h1 h2 =>
    have hq := (hh.sclosed (hh.dfs h2)).1
    have hs : srvRec v.hist = none := by rw [srv, hq]; rfl
    constructor
    case legal => exact ⟨hs, legal⟩
    all_goals first | exact dnA | exact cli |
      grind [isReq, isAsk, isAns, isGone, isKnown, srvRec, cliLinked, Rule, Legal, List.countP_cons, List.countP_append]
  case refuse rid op t h1 h2 =>
    constructor
    case legal =>
      refine ⟨?_, legal⟩
      rcases h2 with h2 | h2
      · exact .inl h2
      · exact .inr (by rw [srv]; exact absQ_ne.2 h2)
    all_goals first | exact cli |
      grind [isReq, isAsk, isAns, isGone, isKnown, srvRec, cliLinked, Rule, Legal, List.countP_cons, List.countP_append]
  case ures u t h1 h2 h3 =>
    have hq : v.q = some (.unlinking u) := by
      rcases hh.ur with h | ⟨w, h, h'⟩
      · rw [h] at h2; simp at h2
      · rw [h'] at h2; simp at h2; rw [h2]; exact h
    have hs : srvRec v.hist = some none := by rw [srv, hq]; rfl
    have hu := ures u (by simp [h1])
    constructor
    case cons =>
      intro rid
      have := cons rid
      rw [h1, hq] at this
      simp only [List.countP_cons, isReq, isAns, isGone, isAsk, pendOf] at this ⊢
      simpa using this
    case legal => exact ⟨⟨by simp [hs], .inr ⟨u, hu⟩⟩, legal⟩
    all_goals first | exact cli | exact uq | exact kept |
      grind [isReq, isAsk, isAns, isGone, isKnown, srvRec, cliLinked, absQ, List.countP_cons, List.countP_append]
  all_goals
    constructor <;> first | exact cons | exact one | exact kn | exact dnA | exact srv | exact cli | exact ua | exact udn | exact uq | exact kept | exact ures | exact ntf | exact qu | exact legal |
      grind [AState.rank, List.mem_of_mem_erase, isReq, isAsk, isAns, isGone, isKnown, srvRec, cliLinked, Rule, Legal, absQ, pendOf, List.countP_cons, List.countP_append, List.count_cons, List.count_erase]

theorem HM.steps {φ : Fl} {v w : View} (h : H v ∧ M v) (st : VSteps φ v w) : H w ∧ M w :=
  st.keeps (P := fun v => H v ∧ M v) (fun _ _ a b => ⟨a.1.step b, a.2.step a.1 b⟩) h

end Verif.Link
