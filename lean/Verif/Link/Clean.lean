import Verif.Link.Hist
/-!
# Executions without timeouts

No request expires and no client asks for a link again while the server's unlink request is in its queue. Then each pair is in
one of a few phases.
-/

namespace Verif.Link
open Verif

/-- the answers to a request -/
def ans (rid : Nat) : List Dn → List Bool
  | [] => []
  | .linkRes r ok :: d => if r = rid then ok :: ans rid d else ans rid d
  | _ :: d => ans rid d

theorem ans_append (rid : Nat) (d e : List Dn) : ans rid (d ++ e) = ans rid d ++ ans rid e := by
  induction d with
  | nil => rfl
  | cons a d ih =>
    cases a with
    | linkRes r ok => simp only [List.cons_append, ans]; split <;> simp [ih]
    | unlinkReq u => simp [ans, ih]

theorem ans_nil {rid : Nat} {d : List Dn} (h : ∀ ok, .linkRes rid ok ∉ d) : ans rid d = [] := by
  induction d with
  | nil => rfl
  | cons a d ih =>
    have hd := ih (fun ok hm => h ok (by simp [hm]))
    cases a with
    | linkRes r ok =>
      have : r ≠ rid := fun e => h ok (by simp [e])
      simp [ans, this, hd]
    | unlinkReq u => simp [ans, hd]

theorem mem_of_ans {rid : Nat} {ok : Bool} {d : List Dn} (h : ok ∈ ans rid d) : .linkRes rid ok ∈ d := by
  induction d with
  | nil => simp [ans] at h
  | cons a d ih =>
    cases a with
    | linkRes r k =>
      simp only [ans] at h
      split at h
      · rename_i e; subst e
        simp at h ⊢
        rcases h with h | h
        · exact .inl h
        · exact .inr (ih h)
      · simp [ih h]
    | unlinkReq u => simp only [ans] at h; simp [ih h]

/-- a client that has asked for the link `rid` -/
def PLink (v : View) (rid : Nat) : Prop :=
  (∃ op, v.up = [.linkReq rid op] ∧ v.q = none ∧ ans rid v.dn = []) ∨
  (∃ op, v.up = [] ∧ v.q = some (.pending rid op) ∧ ans rid v.dn = []) ∨
  (v.up = [] ∧ linkedQ v.q ∧ ans rid v.dn = [true]) ∨
  (v.up = [] ∧ v.q = none ∧ 5 ≤ v.ss.rank ∧ ans rid v.dn = [false]) ∨
  (v.up = [] ∧ v.q = none ∧ v.deafS = true ∧ ans rid v.dn = [])

/-- a client without a record -/
def PNone (v : View) : Prop :=
  (v.up = [] ∧ v.q = none) ∨
  (∃ u, v.up = [.unlinkRes u] ∧ v.q = some (.unlinking u) ∧ v.uq ≠ none) ∨
  (5 ≤ v.cs.rank ∧ v.up = [.notify]) ∨
  (∃ rid op, 5 ≤ v.cs.rank ∧ v.up = [.linkReq rid op, .notify] ∧ v.q = none)

structure K (v : View) : Prop where
  noT : v.ltmo = [] ∧ v.utmo = []
  un : ∀ u, v.q = some (.unlinking u) → u ∈ v.ureq
  lr : (v.lreq = [] ∧ ∀ rid, v.r ≠ some (.linking rid)) ∨ ∃ rid, v.lreq = [rid] ∧ v.r = some (.linking rid)
  plink : ∀ rid, v.r = some (.linking rid) → PLink v rid
  pop : v.r = some .operational → v.up = [] ∧ linkedQ v.q
  pnone : v.r = none → PNone v
  wdn : ∀ u, .unlinkReq u ∈ v.dn → v.q = some (.unlinking u) ∨ (v.r = none ∧ (5 ≤ v.cs.rank ∨ v.uq ≠ none))
  wk : ∀ u, u ∈ v.kept → v.q = some (.unlinking u) ∨ (v.r = none ∧ (5 ≤ v.cs.rank ∨ v.uq ≠ none))
  wq : ∀ u, v.uq = some u → v.q = some (.unlinking u) ∨ v.r = none

theorem K.start {v : View} (hh : H v) (h : K v) (cs' : AState) (hc : v.cs.rank ≤ cs'.rank) (hs : v.ss = .initialized) :
    K { v with cs := cs', ss := .operational, q := startQ v.q, dn := startDn v.q v.dn, hist := startHist v.q v.hist } := by
  have hl : ¬ 5 ≤ v.ss.rank := by rw [hs]; simp [AState.rank]
  have hu : ∀ u, .unlinkReq u ∉ v.dn := fun u hm => hl (hh.udn u hm)
  have hk : v.kept = [] := by
    cases e : v.kept with
    | nil => rfl
    | cons a l => exact absurd (hh.keptL (by simp [e])).1 hl
  have huq : v.uq = none := by
    cases e : v.uq with
    | none => rfl
    | some a => exact absurd (hh.uqL (by simp [e])).1 hl
  obtain ⟨noT, un, lr, plink, pop, pnone, wdn, wk, wq⟩ := h
  cases e : v.q with
  | none =>
    constructor <;> simp only [startQ, startDn, startHist, PLink, PNone, e, linkedQ] at * <;> grind
  | some p =>
    cases p with
    | pending rid op =>
      have ha : ∀ r, ans r (v.dn ++ [.linkRes rid true]) = ans r v.dn ++ if rid = r then [true] else [] := by
        intro r; rw [ans_append]; simp [ans]
      constructor <;> simp only [startQ, startDn, startHist, PLink, PNone, e, linkedQ, ha] at * <;> grind
    | operational => constructor <;> simp only [startQ, startDn, startHist, PLink, PNone, e, linkedQ] at * <;> grind
    | unlinking u => constructor <;> simp only [startQ, startDn, startHist, PLink, PNone, e, linkedQ] at * <;> grind

theorem K.none_of_ures {v : View} (h : K v) {u : Nat} {t : List Up} (e : v.up = .unlinkRes u :: t) : v.r = none ∧ v.uq ≠ none ∧ t = [] := by
  cases hr : v.r with
  | some p =>
    cases p with
    | operational => have := (h.pop hr).1; rw [e] at this; simp at this
    | linking rid =>
      rcases h.plink rid hr with ⟨op, h1, _⟩ | ⟨op, h1, _⟩ | h1 | h1 | h1
      · rw [e] at h1; simp at h1
      · rw [e] at h1; simp at h1
      · have := h1.1; rw [e] at this; simp at this
      · have := h1.1; rw [e] at this; simp at this
      · have := h1.1; rw [e] at this; simp at this
  | none =>
    rcases h.pnone hr with h1 | ⟨w, h1, h2, h3⟩ | h1 | ⟨rid, op, _, h1, _⟩
    · have := h1.1; rw [e] at this; simp at this
    · rw [e] at h1; simp at h1; exact ⟨rfl, h3, h1.2⟩
    · have := h1.2; rw [e] at this; simp at this
    · rw [e] at h1; simp at h1

/-- a client that takes an unlink request from its queue has a confirmed link -/
theorem K.op_of_uq {v : View} (hh : H v) (h : K v) {u : Nat} (e : v.uq = some u) (hr : v.r ≠ none) :
    v.r = some .operational ∧ v.q = some (.unlinking u) := by
  have hq : v.q = some (.unlinking u) := by
    rcases h.wq u e with h | h
    · exact h
    · exact absurd h hr
  refine ⟨?_, hq⟩
  cases hp : v.r with
  | none => exact absurd hp hr
  | some p =>
    cases p with
    | operational => rfl
    | linking rid =>
      have hl := (hh.uqL (by simp [e])).2 rid
      rcases h.plink rid hp with ⟨op, h1, h2, _⟩ | ⟨op, h1, h2, _⟩ | ⟨_, _, h3⟩ | ⟨_, h2, _⟩ | ⟨_, h2, _⟩
      · rw [hq] at h2; simp at h2
      · rw [hq] at h2; simp at h2
      · exact absurd (mem_of_ans (by rw [h3]; simp)) hl
      · rw [hq] at h2; simp at h2
      · rw [hq] at h2; simp at h2

set_option maxHeartbeats 1000000 in
theorem K.step {φ : Fl} (hrl : φ.rl = true) (hnt : φ.nt = true) {v w : View} (hh : H v) (h : K v) (st : VStep φ v w) : K w := by
  have hK := h
  have hh' := hh
  obtain ⟨fup, fdn, fq, ntf, ures, ord, udn, uqL, keptL, rop, act, left, cclosed, sclosed, dfc, dfs, ur, pend, down, downC⟩ := hh
  obtain ⟨noT, un, lr, plink, pop, pnone, wdn, wk, wq⟩ := h
  cases st
  case start cs' h1 h2 _ h3 => exact hK.start hh' cs' h1 h3
  case st cs' ss' h1 h2 h3 h4 h5 _ =>
    refine { noT := noT, un := un, lr := lr, plink := ?_, pop := pop, pnone := ?_, wdn := ?_, wk := ?_, wq := wq }
    · intro rid hr
      have h := plink rid hr
      rcases h with h | h | h | ⟨a, b, c, d⟩ | h
      · exact .inl h
      · exact .inr (.inl h)
      · exact .inr (.inr (.inl h))
      · exact .inr (.inr (.inr (.inl ⟨a, b, Nat.le_trans c h2, d⟩)))
      · exact .inr (.inr (.inr (.inr h)))
    · intro hr
      rcases pnone hr with h | h | ⟨a, b⟩ | ⟨rid, op, a, b⟩
      · exact .inl h
      · exact .inr (.inl h)
      · exact .inr (.inr (.inl ⟨Nat.le_trans a h1, b⟩))
      · exact .inr (.inr (.inr ⟨rid, op, Nat.le_trans a h1, b⟩))
    · intro u hu
      rcases wdn u hu with h | ⟨a, b⟩
      · exact .inl h
      · exact .inr ⟨a, b.imp (fun b => Nat.le_trans b h1) id⟩
    · intro u hu
      rcases wk u hu with h | ⟨a, b⟩
      · exact .inl h
      · exact .inr ⟨a, b.imp (fun b => Nat.le_trans b h1) id⟩
  case resDrop rid ok t h1 h2 =>
    refine { noT := noT, un := un, lr := lr, plink := ?_, pop := pop, pnone := pnone, wdn := fun u hu => wdn u (by simp [h1, hu]), wk := wk, wq := wq }
    intro r hr
    have hne : rid ≠ r := by
      rcases lr with h | ⟨x, hx, hx'⟩
      · exact absurd hr (h.2 r)
      · rw [hr] at hx'; simp at hx'; subst hx'; rw [hx] at h2; simpa using h2
    have h := plink r hr
    have ha : ans r v.dn = ans r t := by rw [h1]; simp [ans, hne]
    simpa only [PLink, ha] using h
  case urQueue u t e hr =>
    constructor
    case wq =>
      intro w hw
      rcases or_some hw with h | rfl
      · exact wq w h
      · rcases wdn w (by simp [e]) with h | h
        · exact .inl h
        · exact absurd h.1 hr
    all_goals first | exact noT | exact un | exact lr | exact pop | skip
    all_goals simp only [PLink, PNone, linkedQ] at * <;> grind [ans]
  case keepQueue u k h1 h2 hr =>
    constructor
    case wq =>
      intro w hw
      rcases or_some hw with h | rfl
      · exact wq w h
      · rcases wk w h2 with h | h
        · exact .inl h
        · exact absurd h.1 hr
    all_goals first | exact noT | exact un | exact lr | exact pop | skip
    all_goals simp only [PLink, PNone, linkedQ] at * <;> grind [ans]
  case unlink u e hr =>
    obtain ⟨h1, h2⟩ := hK.op_of_uq hh' e hr
    obtain ⟨h3, -⟩ := pop h1
    have hl : v.lreq = [] := by
      rcases lr with h | ⟨x, _, hx⟩
      · exact h.1
      · rw [h1] at hx; simp at hx
    refine { noT := noT, un := un, lr := .inl ⟨hl, by simp⟩, plink := by simp, pop := by simp, pnone := fun _ => ?_, wdn := ?_, wk := ?_, wq := ?_ }
    · exact .inr (.inl ⟨u, by simp [h3], h2, by simp [e]⟩)
    · intro u hu
      rcases wdn u hu with h | h
      · exact .inl h
      · exact absurd h.1 hr
    · intro u hu
      rcases wk u hu with h | h
      · exact .inl h
      · exact absurd h.1 hr
    · intro _ _; exact .inr rfl
  case leave hr hc hl =>
    have hc5 : 5 ≤ v.cs.rank := by rw [hc]; simp [AState.rank]
    refine { noT := noT, un := un, lr := .inl ⟨?_, by simp⟩, plink := by simp, pop := by simp, pnone := fun _ => ?_, wdn := ?_, wk := ?_, wq := ?_ }
    · rcases lr with h | ⟨x, h, h'⟩
      · simp only [leaveL]
        split
        · rename_i rid hx; exact absurd hx (h.2 rid)
        · exact h.1
      · simp [leaveL, h', h]
    · cases hp : v.r with
      | none => exact absurd hp hr
      | some p =>
        cases p with
        | operational => exact .inr (.inr (.inl ⟨hc5, by simp [(pop hp).1]⟩))
        | linking rid =>
          rcases plink rid hp with ⟨op, h1, h2, _⟩ | ⟨op, h1, h2, _⟩ | ⟨h1, _⟩ | ⟨h1, _⟩ | ⟨h1, _⟩
          · exact .inr (.inr (.inr ⟨rid, op, hc5, by simp [h1], h2⟩))
          all_goals exact .inr (.inr (.inl ⟨hc5, by simp [h1]⟩))
    · intro u hu
      rcases wdn u hu with h | h
      · exact .inl h
      · exact absurd h.1 hr
    · intro u hu
      rcases wk u hu with h | h
      · exact .inl h
      · exact absurd h.1 hr
    · intro _ _; exact .inr rfl
  case ures u t h1 h2 h3 =>
    obtain ⟨hr, hu, rfl⟩ := hK.none_of_ures h1
    have hur : v.ureq = [u] := by
      rcases ur with h | ⟨w, _, h⟩
      · rw [h] at h2; simp at h2
      · rw [h] at h2; simp at h2; rw [h2]; exact h
    exact {
      noT := noT, un := by simp
      lr := lr
      plink := fun rid h => by simp [hr] at h
      pop := fun h => by simp [hr] at h
      pnone := fun _ => .inl ⟨rfl, rfl⟩
      wdn := fun _ _ => .inr ⟨hr, .inr hu⟩
      wk := fun _ _ => .inr ⟨hr, .inr hu⟩
      wq := fun _ _ => .inr hr }
  all_goals
    constructor <;> (first | exact noT | exact un | exact lr | exact plink | exact pop | exact pnone | exact wdn | exact wk | exact wq | skip)
  all_goals simp only [PLink, PNone, linkedQ, Late, noURes] at * <;> grind [AState.rank, ans_append, ans, ans_nil, mem_of_ans]

/-- what is left of requests, answers and unlink requests -/
structure Q (v : View) : Prop where
  asked : ∀ rid st, .asked rid st ∈ v.hist → v.r = some (.linking rid) ∨ (∃ ok, .known rid ok ∈ v.hist) ∨ .left ∈ v.hist
  refused : ∀ rid, .known rid false ∈ v.hist → ∃ op st, .answered rid false op st ∈ v.hist
  unl : ∀ u, .unlinkAsked u ∈ v.hist → .unlinkReq u ∈ v.dn ∨ v.uq ≠ none ∨ u ∈ v.kept ∨ (v.r = none ∧ (5 ≤ v.cs.rank ∨ v.uq ≠ none))

/-- an unlink request has been asked for and the client has no record: it will not ask again -/
theorem K.gone {v : View} (h : K v) (hr : v.r = none) (hq : v.q ≠ none) : 5 ≤ v.cs.rank ∨ v.uq ≠ none := by
  rcases h.pnone hr with h | ⟨u, _, _, h⟩ | h | ⟨_, _, h, _⟩
  · exact absurd h.2 hq
  · exact .inr h
  · exact .inl h.1
  · exact .inl h

theorem Q.start {v : View} (hh : H v) (hm : M v) (h : Q v) (cs' : AState) (hs : v.ss = .initialized) :
    Q { v with cs := cs', ss := .operational, q := startQ v.q, dn := startDn v.q v.dn, hist := startHist v.q v.hist } := by
  have hl : ¬ 5 ≤ v.ss.rank := by rw [hs]; simp [AState.rank]
  have hua : ∀ u, .unlinkAsked u ∉ v.hist := fun u hx => hl (hm.ua u hx).1
  obtain ⟨a, b, c⟩ := h
  cases e : v.q with
  | none => exact ⟨a, b, fun u hu => absurd hu (hua u)⟩
  | some p => cases p <;> constructor <;> simp only [startHist, startQ, startDn] <;> grind

set_option maxHeartbeats 1000000 in
theorem Q.step {φ : Fl} (hrl : φ.rl = true) (hnt : φ.nt = true) {v w : View} (hh : H v) (hm : M v) (hk : K v) (h : Q v) (st : VStep φ v w) : Q w := by
  have hQ := h
  obtain ⟨asked, refused, unl⟩ := h
  have noT := hk.noT.1
  have dnA := hm.dnA
  have gone := hk.gone
  have lr := hk.lr
  cases st
  case start cs' h1 h2 _ h3 => exact hQ.start hh hm cs' h3
  case unlink u e hr =>
    obtain ⟨h1, h2⟩ := hk.op_of_uq hh e hr
    constructor
    · grind
    · grind
    · intro u' _; exact .inr (.inl (by simp [e]))
  case urIgnore u t e hr =>
    refine ⟨asked, refused, fun u' hu => ?_⟩
    rcases unl u' hu with h | h
    · rw [e] at h
      rcases List.mem_cons.1 h with h | h
      · simp at h; subst h
        have hr' : v.r = none := by
          rcases hr with h | h
          · exact h
          · exact (hh.left (hh.cclosed (hh.dfc h))).1
        rcases hk.wdn u' (by simp [e]) with h | h
        · exact .inr (.inr (.inr ⟨hr', gone hr' (by simp [h])⟩))
        · exact .inr (.inr (.inr h))
      · exact .inl h
    · exact .inr h
  case unkeep k h1 h2 =>
    refine ⟨asked, refused, fun u' hu => ?_⟩
    rcases unl u' hu with h | h | h | h
    · exact .inl h
    · exact .inr (.inl h)
    · rcases hk.wk u' h with h | h
      · exact .inr (.inr (.inr ⟨h2, gone h2 (by simp [h])⟩))
      · exact .inr (.inr (.inr h))
    · exact .inr (.inr (.inr h))
  all_goals constructor <;> (first | exact asked | exact refused | exact unl | skip)
  all_goals grind [AState.rank]

theorem all_steps {φ : Fl} (hrl : φ.rl = true) (hnt : φ.nt = true) {v w : View} (h : H v ∧ M v ∧ K v ∧ Q v) (st : VSteps φ v w) : H w ∧ M w ∧ K w ∧ Q w :=
  st.keeps (P := fun v => H v ∧ M v ∧ K v ∧ Q v)
    (fun _ _ a b => ⟨a.1.step b, a.2.1.step a.1 b, K.step hrl hnt a.1 a.2.2.1 b, Q.step hrl hnt a.1 a.2.1 a.2.2.1 a.2.2.2 b⟩) h

end Verif.Link
