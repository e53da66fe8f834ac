import Verif.Link.System
/-!
# The initialization of a client

No link is asked for again while the server's unlink request is in the client's queue, and the plugins behind the link client
ask for no links while they are asked whether they are initialized.
-/

namespace Verif.Link
open Verif

structure L (v : View) : Prop where
  act : ∀ rid, rid ∈ v.lreq ∨ rid ∈ v.ltmo → v.r = some (.linking rid) ∨ (v.r = none ∧ (5 ≤ v.cs.rank ∨ v.uq ≠ none))
  asked : ∀ rid st, .asked rid st ∈ v.hist →
    v.r = some (.linking rid) ∨ (∃ ok, .known rid ok ∈ v.hist) ∨ .left ∈ v.hist ∨ ∃ u, .unlinked u ∈ v.hist
  left : .left ∈ v.hist → 5 ≤ v.cs.rank
  good : v.ir = true → v.cs = .initializing → ∀ rid, .known rid false ∉ v.hist
  first : v.ia = false → ∀ rid st, .asked rid st ∉ v.hist
  lk : ∀ rid, v.r = some (.linking rid) → ∃ st, .asked rid st ∈ v.hist
  ri : v.ri = false → ∀ rid, v.r ≠ some (.linking rid)
  okst : v.ok = true → v.cs ≠ .initializing
  ok : v.ok = true → ∀ rid, .asked rid .initializing ∈ v.hist →
    v.r ≠ some (.linking rid) ∧ (.known rid true ∈ v.hist ∨ ∃ u, .unlinked u ∈ v.hist) ∧ .known rid false ∉ v.hist

theorem asked_of_known {v : View} (hm : M v) {rid : Nat} {ok : Bool} (h : .known rid ok ∈ v.hist) : ∃ st, .asked rid st ∈ v.hist := by
  have h1 := hm.kn rid
  have h2 : 0 < v.hist.countP (isKnown rid) := List.countP_pos_iff.2 ⟨_, h, by simp [isKnown]⟩
  have h3 : 0 < v.hist.countP (isAsk rid) := by omega
  obtain ⟨e, he, hp⟩ := List.countP_pos_iff.1 h3
  cases e with
  | asked r st => simp [isAsk] at hp; subst hp; exact ⟨st, he⟩
  | _ => simp [isAsk] at hp

theorem asked_lt {v : View} (hm : M v) {rid : Nat} {st : AState} (h : .asked rid st ∈ v.hist) : rid < v.nx := by
  have h1 := hm.one rid
  have h3 : 0 < v.hist.countP (isAsk rid) := List.countP_pos_iff.2 ⟨_, h, by simp [isAsk]⟩
  split at h1
  · assumption
  · omega

/-- a request is active at most once -/
theorem act_one {v : View} (hm : M v) (rid : Nat) : v.lreq.count rid + v.ltmo.count rid ≤ 1 := by
  have h1 := hm.kn rid
  have h2 := hm.one rid
  split at h2 <;> omega

theorem mem_count {l : List Nat} {x : Nat} : x ∈ l ↔ 0 < l.count x := by simp [List.count_pos_iff]

theorem hist_start {q : Option CPh} {h : List PEv} {e : PEv} (hn : ∀ rid op, e ≠ .answered rid true op .operational) :
    e ∈ startHist q h ↔ e ∈ h := by
  unfold startHist
  split
  · rename_i rid op
    constructor
    · intro h
      rcases List.mem_cons.1 h with h | h
      · exact absurd h (hn rid op)
      · exact h
    · intro h; exact List.mem_cons_of_mem _ h
  · exact Iff.rfl

theorem L.start {v : View} (h : L v) (cs' : AState) (hc : v.cs.rank ≤ cs'.rank) (hm : stMove v.cs cs') :
    L { v with cs := cs', ss := .operational, q := startQ v.q, dn := startDn v.q v.dn, hist := startHist v.q v.hist } := by
  have hi : cs' = .initializing → v.cs = .initializing := by
    intro e
    rcases hm with h | h | h
    · rw [← h]; exact e
    · rw [e] at h; simp [AState.rank] at h
    · rw [e] at h; simp at h
  obtain ⟨act, asked, left, good, first, lk, ri, okst, ok⟩ := h
  constructor <;> simp only [hist_start, ne_eq, reduceCtorEq, not_false_eq_true, implies_true]
  · intro rid h
    rcases act rid h with h | ⟨h1, h2⟩
    · exact .inl h
    · exact .inr ⟨h1, h2.imp (fun h => Nat.le_trans h hc) id⟩
  · exact asked
  · exact fun h => Nat.le_trans (left h) hc
  · exact fun h1 h2 => good h1 (hi h2)
  · exact first
  · exact lk
  · exact ri
  · exact fun h1 h2 => okst h1 (hi h2)
  · exact ok

theorem L.only {v : View} (hm : M v) (h : L v) {rid : Nat} (hr : v.r ≠ none) (hl : rid ∈ v.lreq) :
    v.r = some (.linking rid) ∧ v.lreq.erase rid = [] ∧ v.ltmo = [] := by
  have h1 : v.r = some (.linking rid) := by
    rcases h.act rid (.inl hl) with h | h
    · exact h
    · exact absurd h.1 hr
  have one := act_one hm rid
  have hp := mem_count.1 hl
  have eqr : ∀ x, x ∈ v.lreq ∨ x ∈ v.ltmo → x = rid := by
    intro x hx
    rcases h.act x hx with h | h
    · rw [h1] at h; simp at h; exact h.symm
    · exact absurd h.1 hr
  refine ⟨h1, ?_, ?_⟩
  · refine List.eq_nil_iff_forall_not_mem.2 (fun x hx => ?_)
    have := eqr x (.inl (List.mem_of_mem_erase hx))
    subst this
    have := mem_count.1 hx
    rw [List.count_erase_self] at this
    omega
  · refine List.eq_nil_iff_forall_not_mem.2 (fun x hx => ?_)
    have := eqr x (.inr hx)
    subst this
    have := mem_count.1 hx
    omega

theorem L.onlyT {v : View} (hm : M v) (h : L v) {rid : Nat} {t : List Nat} (hr : v.r ≠ none) (hl : v.ltmo = rid :: t) :
    v.r = some (.linking rid) ∧ v.lreq = [] ∧ t = [] := by
  have h1 : v.r = some (.linking rid) := by
    rcases h.act rid (.inr (by simp [hl])) with h | h
    · exact h
    · exact absurd h.1 hr
  have one := act_one hm rid
  rw [hl, List.count_cons_self] at one
  have eqr : ∀ x, x ∈ v.lreq ∨ x ∈ v.ltmo → x = rid := by
    intro x hx
    rcases h.act x hx with h | h
    · rw [h1] at h; simp at h; exact h.symm
    · exact absurd h.1 hr
  refine ⟨h1, ?_, ?_⟩
  · refine List.eq_nil_iff_forall_not_mem.2 (fun x hx => ?_)
    have := eqr x (.inl hx)
    subst this
    have := mem_count.1 hx
    omega
  · refine List.eq_nil_iff_forall_not_mem.2 (fun x hx => ?_)
    have := eqr x (.inr (by simp [hl, hx]))
    subst this
    have := mem_count.1 hx
    omega

set_option maxHeartbeats 2000000 in
theorem L.step {φ : Fl} (hrl : φ.rl = true) (hnl : φ.nl = true) {v w : View} (hh : H v) (hm : M v) (hj : J v) (h : L v)
    (st : VStep φ v w) : L w := by
  have hL := h
  have one := act_one hm
  have kn := fun rid ok => asked_of_known (rid := rid) (ok := ok) hm
  have lt := fun rid st => asked_lt (rid := rid) (st := st) hm
  obtain ⟨act, asked, left, good, first, lk, ri, okst, ok⟩ := h
  simp only [mem_count] at act
  cases st
  case start cs' h1 h2 h3 h4 => exact hL.start cs' h1 h3
  case leave h1 h2 h3 =>
    have hc := count_leaveL v.r v.lreq
    have h5 : 5 ≤ v.cs.rank := by rw [h2]; simp [AState.rank]
    constructor <;> (try simp only [mem_count]) <;> (first | exact left | exact ri | exact okst | skip)
    all_goals grind
  case riOff h1 =>
    refine { hL with ri := fun _ => ?_ }
    cases e : v.ri with
    | true => exact h1 e
    | false => exact ri e
  case succeed h1 h2 h3 =>
    have hr := ri (h3 hnl)
    have hg := good h1 h2
    have hnl : .left ∉ v.hist := fun h => by have := left h; rw [h2] at this; simp [AState.rank] at this
    refine { act := fun rid h => ?_, asked := asked, left := fun h => absurd h hnl, good := by simp, first := first, lk := lk, ri := ri,
             okst := by simp, ok := fun _ rid h => ⟨hr rid, ?_, hg rid⟩ }
    · rcases hL.act rid h with h | ⟨h, h'⟩
      · exact .inl h
      · rcases h' with h' | h'
        · rw [h2] at h'; simp [AState.rank] at h'
        · exact .inr ⟨h, .inr h'⟩
    · rcases asked rid _ h with h | ⟨k, h⟩ | h | h
      · exact absurd h (hr rid)
      · cases k with
        | true => exact .inl h
        | false => exact absurd h (hg rid)
      · exact absurd h hnl
      · exact .inr h
  case resOk rid t h1 h2 h3 =>
    obtain ⟨e1, e2, e3⟩ := hL.only hm h3 h2
    constructor <;> simp only [e2, e3] <;> (first | exact left | exact first | exact okst | skip)
    all_goals grind
  case resErr rid t h1 h2 h3 h4 =>
    obtain ⟨e1, e2, e3⟩ := hL.only hm h3 h2
    constructor <;> simp only [e2, e3] <;> (first | exact left | exact first | exact okst | skip)
    all_goals grind
  case tmoErr rid t h1 h2 h3 =>
    obtain ⟨e1, e2, e3⟩ := hL.onlyT hm h2 h1
    subst e3
    constructor <;> simp only [e2] <;> (first | exact left | exact first | exact okst | skip)
    all_goals grind
  case st cs' ss' h1 h2 h3 h4 h5 h6 =>
    simp only [stMove] at h6
    constructor <;> (try simp only [mem_count]) <;> (first | exact act | exact asked | exact left | exact good | exact first | exact lk | exact ri | exact okst | exact ok | skip)
    all_goals grind [AState.rank]
  all_goals
    constructor <;> (try simp only [mem_count]) <;> (first | exact act | exact asked | exact left | exact good | exact first | exact lk | exact ri | exact okst | exact ok | skip)
  all_goals grind [AState.rank]

theorem L_init (c s : Nat) : L (view State.init c s) := by
  rw [view_init]
  constructor <;> simp

theorem reach_L {φ : Fl} (hrl : φ.rl = true) (hnl : φ.nl = true) {σ : State} (h : Reach φ σ) : ∀ c s, L (view σ c s) := by
  induction h with
  | init => exact L_init
  | step op h0 hr ht hn _ _ h ih =>
    intro c s
    have := (sim_step h (reach_J h0) hr ht hn c s).keeps (P := fun v => H v ∧ M v ∧ J v ∧ L v)
      (fun v w a b => ⟨a.1.step b, a.2.1.step a.1 b, a.2.2.1.step b, L.step hrl hnl a.1 a.2.1 a.2.2.1 a.2.2.2 b⟩)
      ⟨(reach_HM h0 c s).1, (reach_HM h0 c s).2, reach_J h0 c s, ih c s⟩
    exact this.2.2.2

end Verif.Link
