import Verif.Tree.Reach
import Verif.Tree.Spec
/-!
# How the initialization and the shutdown of a tree end
-/

namespace Verif.Tree
open Verif Verif.Children

variable {s : Sys} {φ : Fl} {T T' : Tree}

/-! ## messages of the parent find the supervisor able to handle them -/

/-- the message a supervisor sends to another never meets an assertion there: it is asked once to initialize, and once to shut down -/
theorem C53_deliverable (h : TReach s φ T) {p : Path} {a : Nat} {m : Dn} {t : List Dn} (hm : Member s T (a :: p))
    (hq : (T p).to a = m :: t) (hs : (T (a :: p)).st ≠ .shutDown) (o : Ora) : ∃ σ', step (s.conf (a :: p)) (T (a :: p)) (opOf o m) = .ok σ' := by
  have hg := h.g
  have hk := hg.cons p a hm.2.1 hm.2.2
  have hv := (hg.reach p).inv a
  have ht : (view (T p) a).t = m :: t := hq
  have hk' : (view (T p) a).k = mirror (T (a :: p)) := hk
  cases m with
  | start => exact ⟨_, by simp only [opOf, step]; rw [if_pos (conf_sub s a p)]⟩
  | initReq =>
    have h1 := hv.l.asked
    have h2 := hv.b.ci
    rw [ht, hk'] at h1
    simp only [List.count_cons_self] at h1
    have h3 : (mirror (T (a :: p))).asked = false := by
      cases hx : (mirror (T (a :: p))).asked with
      | false => rfl
      | true => rw [hx] at h1; simp only [if_true] at h1; omega
    simp only [mirror, Bool.or_eq_false_iff, decide_eq_false_iff_not] at h3
    have h4 : (T (a :: p)).initOks + (T (a :: p)).initFails = 0 := by have := h3.2; unfold answers at this; omega
    simp only [opOf, step]
    rw [if_pos ⟨conf_sub s a p, h3.1, h4⟩]
    unfold onInitReq
    simp only
    split
    · rename_i hi
      unfold actorInitContinue
      rw [if_pos ⟨hi, rfl⟩]
      split
      · exact ⟨_, rfl⟩
      · simp only; split <;> exact ⟨_, rfl⟩
    · exact ⟨_, rfl⟩
  | shutReq =>
    have h1 := hv.a.tok
    have h2 := hv.a.ns1
    rw [ht, hk'] at h1
    simp only [List.count_cons_self] at h1
    have h3 : (T (a :: p)).st ≠ .shuttingDown := by
      intro hx
      have : dying (mirror (T (a :: p))) = 1 := by unfold dying; rw [if_pos (by exact hx)]
      omega
    have h5 : (T (a :: p)).st.rank < AState.shuttingDown.rank := by
      generalize (T (a :: p)).st = x at *
      cases x <;> simp [AState.rank] at *
    simp only [opOf, step]
    rw [if_pos ⟨conf_sub s a p, h5⟩]
    exact sc_ok rfl

/-! ## the members are finitely many levels deep -/

theorem member_change (hg : G s φ T) (hc : ∀ x, T' x ≠ T x → Member s T x) :
    ∀ x, Member s T' x → Member s T x ∨ ∃ a y, x = a :: y ∧ Member s T y := by
  intro x
  induction x with
  | nil => intro _; exact .inl trivial
  | cons a y ih =>
    intro h
    rcases ih h.1 with h1 | ⟨b, z, rfl, h1⟩
    · exact .inr ⟨a, y, rfl, h1⟩
    · by_cases hm : Member s T (b :: z)
      · exact .inr ⟨a, _, rfl, hm⟩
      · exfalso
        have e : T' (b :: z) = T (b :: z) := Classical.byContradiction (fun hne => hm (hc _ hne))
        have hb : ((T z).kid b).born = false := by
          cases hb : ((T z).kid b).born with
          | false => rfl
          | true => exact absurd ⟨h1, h.1.2.1, hb⟩ hm
        have h2 := h.2.2
        rw [e, hg.unborn z b hb] at h2
        simp [State.init, Kid.no] at h2

theorem TReach.deep (h : TReach s φ T) : ∃ D, ∀ p, Member s T p → p.length ≤ D := by
  have key : ∀ {T T' : Tree}, G s φ T → (∀ x, T' x ≠ T x → Member s T x) → (∃ D, ∀ p, Member s T p → p.length ≤ D) →
      ∃ D, ∀ p, Member s T' p → p.length ≤ D := by
    intro T T' hg hc ⟨D, hD⟩
    refine ⟨D + 1, fun p hp => ?_⟩
    rcases member_change hg hc p hp with h1 | ⟨a, y, rfl, h1⟩
    · exact Nat.le_succ_of_le (hD p h1)
    · have := hD y h1; simp only [List.length_cons]; omega
  induction h with
  | init =>
    refine ⟨0, fun p hp => ?_⟩
    cases p with
    | nil => simp
    | cons a p => exact absurd hp.2.2 (by simp [Tree.init, State.init, Kid.no])
  | own p op σ' hr hm ho ha he ih =>
    refine key hr.g (fun x hx => ?_) ih
    cases p with
    | nil =>
      by_cases e : x = []
      · subst e; exact hm
      · exact absurd (put_ne _ _ e) hx
    | cons a p =>
      by_cases e : x = a :: p
      · subst e; exact hm
      · by_cases e' : x = p
        · subst e'; exact hm.1
        · exact absurd (by unfold change; simp only; rw [put_ne _ _ e, put_ne _ _ e']) hx
  | deliver p a m t o σ' hr hm hq hs ha he ih =>
    refine key hr.g (fun x hx => ?_) ih
    by_cases e : x = a :: p
    · subst e; exact hm
    · by_cases e' : x = p
      · subst e'; exact hm.1
      · exact absurd (by unfold change; simp only; rw [put_ne _ _ e, put_ne _ _ e', put_ne _ _ e']) hx
  | lost p a m t hr hm hq hs ih =>
    refine key hr.g (fun x hx => ?_) ih
    by_cases e' : x = p
    · subst e'; exact hm.1
    · exact absurd (put_ne _ _ e') hx

/-! ## below a supervisor that is shut down -/

/-- no actor below a supervisor that is shut down is left in another state -/
theorem C53_below (hc : φ.nc = true) (h : TReach s φ T) {p : Path} (hs : (T p).st = .shutDown) :
    ∀ l, Member s T (l ++ p) → (T (l ++ p)).st = .shutDown ∧ ∀ a, ((T (l ++ p)).kid a).born = true → ((T (l ++ p)).kid a).st = .shutDown := by
  have hg := h.g
  have kids : ∀ x, (T x).st = .shutDown → ∀ a, ((T x).kid a).born = true → ((T x).kid a).st = .shutDown := by
    intro x hx a hb
    have := C35_last hc (hg.reach x) (.inr hx) a
    exact Classical.byContradiction (fun hn => this ⟨hb, hn⟩)
  intro l
  induction l with
  | nil => intro _; exact ⟨hs, kids p hs⟩
  | cons a l ih =>
    intro hm
    have h1 := (ih hm.1).2 a hm.2.2
    rw [hg.cons (l ++ p) a hm.2.1 hm.2.2] at h1
    exact ⟨h1, kids _ h1⟩

/-! ## the end -/

/-- what holds in all executions of interest: a supervisor's other plugins agree to its initialization and shutdown; its children are not
created while it is shutting down, its spawners neither -/
structure Fair (s : Sys) (φ : Fl) : Prop where
  wn : φ.wn = true
  wa : φ.wa = true
  ns : φ.ns = true
  nc : φ.nc = true
  sync : (∀ p, s.sync p = false) ∨ (φ.nl = true ∧ φ.nm = true ∧ φ.no = true)

theorem not_closed {s : Sys} {T : Tree} (h : Settled s T) {p : Path} (hm : Member s T p) (hs : (T p).st = .shuttingDown) : (T p).closed = false := by
  cases hc : (T p).closed with
  | false => rfl
  | true =>
    have := h.done p hm
    simp only [step] at this
    rw [if_pos ⟨hc, hs⟩] at this
    exact absurd rfl (this _)

/-- a child of a supervisor that shuts down -/
theorem kid_dying (hf : Fair s φ) (hg : G s φ T) {p : Path} (hq : Quiet (T p)) (h5 : 5 ≤ (T p).st.rank) {a : Nat} (hb : ((T p).kid a).born = true) :
    5 ≤ ((T p).kid a).st.rank := by
  by_cases hl : Living (T p) a
  · cases hcl : (T p).closed with
    | true => exact absurd hl (C35_last hf.nc (hg.reach p) (.inl hcl) a)
    | false =>
      obtain ⟨r, h1, h2⟩ := living_rec (hg.reach p) hl
      have hk := (((hg.reach p).k hf.wa hf.ns).1 a h5 r h1).1 h2
      rw [asked_dying (hg.reach p) hq hcl h1 h2 hk]
      decide
  · have : ((T p).kid a).st = .shutDown := Classical.byContradiction (fun hn => hl ⟨hb, hn⟩)
    rw [this]; decide

/-- a supervisor whose initialization has failed, or that wants to be shut down, is -/
theorem failing_dies (hf : Fair s φ) (hg : G s φ T) (hs : Settled s T) : ∀ p, Member s T p → Failing (T p) → 5 ≤ (T p).st.rank := by
  intro p
  induction p with
  | nil => intro _ h; exact C38_root rfl (hg.reach []) (hs.quiet [] trivial).q h
  | cons a p ih =>
    intro hm h
    have hk := hg.cons p a hm.2.1 hm.2.2
    have hq := hs.quiet p hm.1
    have ek : (mirror (T (a :: p))).st = (T (a :: p)).st := rfl
    by_cases h5 : 5 ≤ (T p).st.rank
    · have := kid_dying hf hg hq h5 hm.2.2
      rw [hk] at this; exact this
    · have hnf : ¬ Failing (T p) := fun hx => h5 (ih hm.1 hx)
      have hcl : (T p).closed = false := by
        cases hcl : (T p).closed with
        | false => rfl
        | true => exact absurd ((hg.reach p).r.cl hcl) h5
      refine Classical.byContradiction (fun hlt => ?_)
      rcases h with hfail | hw
      · have hans : ((T p).kid a).ans = true := by
          rw [hk]
          simp only [mirror, decide_eq_true_eq]
          unfold answers; omega
        have hp := C38_child (hg.reach p) hq hcl hnf a hans
        unfold Past at hp
        rw [hk, ek] at hp
        have hR := (hg.reach (a :: p)).r
        have h1 := hR.one
        have h3 := hR.ok3
        simp only [sview] at h1 h3
        generalize (T (a :: p)).st = x at *
        cases x <;> simp [AState.rank] at hp hlt h3 <;> omega
      · have hwant : ((T p).kid a).want = true := by rw [hk]; simp [mirror, hw]
        have := ((hg.reach p).inv a).l.l4 hcl hwant (by show ((T p).kid a).st.rank ≤ 4; rw [hk, ek]; omega)
        rw [hq.s, hq.o] at this
        simp only [List.not_mem_nil, false_or] at this
        obtain ⟨r, h1, h2, h3⟩ := this
        have := asked_dying (hg.reach p) hq hcl h1 h2 h3
        rw [hk, ek] at this
        rw [this] at hlt
        exact hlt (by decide)

/-- no supervisor is shutting down, or initializing -/
theorem none_busy (hf : Fair s φ) (h : TReach s φ T) (hs : Settled s T) (p : Path) (hm : Member s T p) :
    (T p).st ≠ .shuttingDown ∧ ¬ ((T p).st = .initializing ∧ (T p).initReq = true) := by
  have hg := h.g
  obtain ⟨D, hD⟩ := h.deep
  have key : ∀ n (p : Path), Member s T p → D < p.length + n →
      (T p).st ≠ .shuttingDown ∧ ¬ ((T p).st = .initializing ∧ (T p).initReq = true) := by
    intro n
    induction n with
    | zero => intro p hm hl; have := hD p hm; omega
    | succ n ih =>
      intro p hm hl
      have hq := hs.quiet p hm
      have kids : ∀ a, ¬ Busy (T p) a ∧ ((T p).kid a).st ≠ .shuttingDown := by
        intro a
        cases hsup : s.sup (a :: p) with
        | false => exact hs.leaf p a hm hsup
        | true =>
          cases hb : ((T p).kid a).born with
          | false =>
            have := ((hg.reach p).inv a).a.unb hb
            have e : (T p).kid a = Kid.no := this.1
            unfold Busy
            rw [e]; simp [Kid.no]
          | true =>
            have hk := hg.cons p a hsup hb
            have := ih (a :: p) ⟨hm, hsup, hb⟩ (by simp only [List.length_cons]; omega)
            rw [hk]
            refine ⟨?_, this.1⟩
            unfold Busy
            rw [hk]
            rintro ⟨h1, h2, h3⟩
            refine this.2 ⟨h1, ?_⟩
            simp only [mirror] at h2 h3
            rw [h3] at h2
            simpa using h2
      refine ⟨fun h5 => ?_, fun hi => ?_⟩
      · rcases C35_waits hf.nc hf.ns hf.wa (hg.reach p) hq h5 with h1 | ⟨a, h1⟩
        · rw [not_closed hs hm h5] at h1; simp at h1
        · exact (kids a).2 h1
      · rcases C34_waits hf.wn (hg.reach p) hq hi.1 hi.2 with ⟨a, h1 | h1⟩ | h1
        · exact (kids a).1 h1
        · exact (kids a).2 h1
        · have := failing_dies hf hg hs p hm (.inr h1)
          rw [hi.1] at this
          simp [AState.rank] at this
  exact key (D + 1) p hm (by omega)

/-- a child of an OPERATIONAL supervisor -/
theorem kid_ends (hf : Fair s φ) (hg : G s φ T) {p : Path} (hq : Quiet (T p)) (hnf : ¬ Failing (T p)) (ho : (T p).st = .operational) (a : Nat)
    (hb : ((T p).kid a).born = true) (h1 : ¬ Busy (T p) a) (h2 : ((T p).kid a).st ≠ .shuttingDown) :
    ((T p).kid a).st = .operational ∨ ((T p).kid a).st = .shutDown := by
  refine Classical.byContradiction (fun hn => ?_)
  have hr := hg.reach p
  have hv := hr.inv a
  have hcl : (T p).closed = false := by
    cases hcl : (T p).closed with
    | false => rfl
    | true => have := hr.r.cl hcl; simp only [sview, ho, AState.rank] at this; omega
  have hl : Living (T p) a := ⟨hb, fun h => hn (.inr h)⟩
  obtain ⟨r, hr1, hr2⟩ := living_rec hr hl
  have hrank := hv.b.rank
  have hst : ((T p).kid a).st = .initializing ∨ ((T p).kid a).st = .initialized := by
    have e : (view (T p) a).k = (T p).kid a := rfl
    rw [e] at hrank
    generalize ((T p).kid a).st = x at *
    cases x <;> simp [AState.rank] at *
  have hshut : r.shut = .none := Classical.byContradiction (fun hx => h2 (asked_dying hr hq hcl hr1 hr2 hx))
  rcases hst with hst | hst
  · have hini : r.initialized = false := by
      cases hi : r.initialized with
      | false => rfl
      | true =>
        have := (hv.b.ini3 r hr1 hr2 hi).1
        have e : (view (T p) a).k = (T p).kid a := rfl
        rw [e, hst] at this
        simp [AState.rank] at this
    have h3 := hv.l.l1 hcl r hr1 hr2 hini
    rw [hq.s, hq.o, hshut] at h3
    simp only [List.not_mem_nil, false_or, ne_eq, not_true_eq_false] at h3
    rcases h3 with h3 | h3
    · have h4 := hv.l.l2 hcl h3
      rw [hq.s, hq.o, hq.t] at h4
      simp only [List.not_mem_nil, false_or, exists_false] at h4
      rcases h4 with h4 | h4
      · exact h1 ⟨hst, h4.1, h4.2.1⟩
      · have e : (view (T p) a).k = (T p).kid a := rfl
        rw [e, hst] at h4
        simp [AState.rank] at h4
    · exact hnf ((sf_iff _ a).1 h3)
  · cases hsy : (s.conf p).sync with
    | false => exact C37_started hsy hr hq hcl hnf a hst
    | true =>
      rcases hf.sync with hx | ⟨hnl, hnm, hno⟩
      · have := hx p; simp only [Sys.conf] at hsy; rw [hsy] at this; simp at this
      · have hT := hr.t (.inr ⟨hnl, hnm⟩) a
        have h3 := hT.t3 hst ((hr.o hno a).o1 hsy ho r hr1 hr2)
        rw [hq.t] at h3
        simp at h3

/-- a tree where nothing is going on any more: either its root is OPERATIONAL, and every other actor is, or has been shut down; or every
actor is shut down -/
theorem C53_ends_partial (hf : Fair s φ) (h : TReach s φ T) (hs : Settled s T) :
    ((T []).st = .operational ∧ All s T (fun x => x = .operational ∨ x = .shutDown)) ∨ All s T (fun x => x = .shutDown) := by
  have hg := h.g
  have hbusy := none_busy hf h hs
  have kids : ∀ p, Member s T p → ∀ a, ¬ Busy (T p) a ∧ ((T p).kid a).st ≠ .shuttingDown := by
    intro p hm a
    cases hsup : s.sup (a :: p) with
    | false => exact hs.leaf p a hm hsup
    | true =>
      cases hb : ((T p).kid a).born with
      | false =>
        have e : (T p).kid a = Kid.no := (((hg.reach p).inv a).a.unb hb).1
        unfold Busy
        rw [e]; simp [Kid.no]
      | true =>
        have hk := hg.cons p a hsup hb
        have := hbusy (a :: p) ⟨hm, hsup, hb⟩
        rw [hk]
        refine ⟨?_, this.1⟩
        unfold Busy
        rw [hk]
        rintro ⟨h1, h2, h3⟩
        refine this.2 ⟨h1, ?_⟩
        simp only [mirror] at h2 h3
        rw [h3] at h2
        simpa using h2
  have hroot : (T []).st = .operational ∨ (T []).st = .shutDown := by
    have hR := (hg.reach []).r
    have hq := hs.quiet [] trivial
    have hq0 : (sview (T [])).q = [] := by simp [sview, hq.q]
    have hlo := hR.lo
    have h1 := hR.r1 rfl
    rw [hq0] at h1
    simp only [List.not_mem_nil, false_and, false_or, sview] at h1 hlo
    have h2 : (T []).st ≠ .initializing := fun hi => by
      obtain ⟨a, h3 | h3⟩ := C34_root rfl hf.wn (hg.reach []) hq hi
      · exact (kids [] trivial a).1 h3
      · exact (kids [] trivial a).2 h3
    have h5 := (hbusy [] trivial).1
    generalize (T []).st = x at *
    cases x <;> simp [AState.rank] at *
  have hkids : ∀ p, Member s T p → (T p).st = .operational ∨ (T p).st = .shutDown → ∀ a, ((T p).kid a).born = true →
      ((T p).kid a).st = .operational ∨ ((T p).kid a).st = .shutDown := by
    intro p hm hp a hb
    rcases hp with hp | hp
    · refine kid_ends hf hg (hs.quiet p hm) (fun hx => ?_) hp a hb (kids p hm a).1 (kids p hm a).2
      have := failing_dies hf hg hs p hm hx
      rw [hp] at this; simp [AState.rank] at this
    · have := C35_last hf.nc (hg.reach p) (.inr hp) a
      exact .inr (Classical.byContradiction (fun hn => this ⟨hb, hn⟩))
  have hall : ∀ p, Member s T p → (T p).st = .operational ∨ (T p).st = .shutDown := by
    intro p
    induction p with
    | nil => intro _; exact hroot
    | cons a p ih =>
      intro hm
      have := hkids p hm.1 (ih hm.1) a hm.2.2
      rw [hg.cons p a hm.2.1 hm.2.2] at this
      exact this
  rcases hroot with h0 | h0
  · exact .inl ⟨h0, fun p hm => ⟨hall p hm, hkids p hm (hall p hm)⟩⟩
  · right
    intro p hm
    have := C53_below hf.nc h h0 p
    rw [List.append_nil] at this
    exact this hm

/-- a supervisor whose initialization has failed, or that wants to be shut down, is shut down then -/
theorem C53_failed (hf : Fair s φ) (h : TReach s φ T) (hs : Settled s T) {p : Path} (hm : Member s T p) (hx : Failing (T p)) :
    (T p).st = .shutDown := by
  have h5 := failing_dies hf h.g hs p hm hx
  have h1 := (none_busy hf h hs p hm).1
  generalize (T p).st = x at *
  cases x <;> simp [AState.rank] at *

end Verif.Tree
