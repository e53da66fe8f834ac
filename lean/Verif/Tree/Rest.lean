import Verif.Tree.Bound
import Verif.Tree.Props
/-!
# C53: a tree of supervisors comes to rest
-/

namespace Verif.Tree
open Verif Verif.Children

variable {s : Sys} {φ : Fl} {T T' T0 : Tree}

theorem change_taken {p : Path} {a : Nat} {σ' : State} : change (put T p (taken a (T p))) (a :: p) σ' =
    put (put T p (seen a (T (a :: p)) σ' (taken a (T p)))) (a :: p) σ' := by
  unfold change
  simp only [put_self, put_ne (x := a :: p) T _ (Ne.symm (cons_ne a p))]
  funext x
  unfold put
  split
  · rfl
  · split <;> rfl

theorem deliver_mono {c : Conf} {σ σ' : State} {m : Dn} {o : Ora} (hc : c.root = false) (hs : σ.st ≠ .shutDown) (he : step c σ (opOf o m) = .ok σ') : Mono σ σ' := by
  have h := Mono.of (begun_delta hc he)
  have e : (begun m σ).wants = σ.wants ∧ (begun m σ).initOks = σ.initOks ∧ (begun m σ).initFails = σ.initFails := by
    cases m with
    | initReq => exact ⟨rfl, rfl, rfl⟩
    | start => unfold begun; simp only; split <;> exact ⟨rfl, rfl, rfl⟩
    | shutReq => exact ⟨rfl, rfl, rfl⟩
  exact ⟨by rw [← e.1]; exact h.wants, by rw [← e.2.1]; exact h.oks, by rw [← e.2.2]; exact h.fails, fun hx => absurd hx hs⟩

theorem cover_init : Cover s (.init s) [[]] := by
  refine ⟨by simp, fun p => ?_⟩
  cases p with
  | nil => simp [Member]
  | cons a p => simp [Member, Tree.init, State.init, Kid.no]

theorem tot_init : tot s (.init s) [[]] = 25 := by
  simp [tot, sumL, todo, Tree.init, State.init, Sys.conf, ks, sumTo, ss, se, qs, wQ]

theorem TRun.tot {n u m : Nat} {L0 : List Path} (h0 : TReach s φ T0) (hc : Cover s T0 L0) (h : TRun s φ T0 T n u m) :
    ∃ L, Cover s T L ∧ n + Verif.Tree.tot s T L ≤ Verif.Tree.tot s T0 L0 + 7 * u + 43 * m := by
  induction h with
  | refl => exact ⟨L0, hc, by omega⟩
  | @own T n u m p op σ' hr hm ho ha he ih =>
    obtain ⟨L, hL, hb⟩ := ih
    have hg := (hr.reach h0).g
    have hf' : Fresh σ' := (Reach.step op (hg.reach p) ha he).base.1
    have hco := co_step (lf := lf s p) he (hg.reach p).base.1 (leaf_own ho)
    have hpr : price (T p) op + (if idle (T p) op then 0 else 1 : Nat) ≤ 7 * (if user op then 1 else 0 : Nat) := by
      unfold price
      cases hi : idle (T p) op
      · cases user op <;> simp
      · cases user op <;> simp
    cases p with
    | nil =>
      obtain ⟨L', h1, h2⟩ := tot_root hg hL hco hf'
      refine ⟨L', h1, ?_⟩
      simp only [change] at *
      split at hpr <;> split at hpr <;> simp_all <;> omega
    | cons b q =>
      have hmo := Mono.of (own_delta (conf_sub s b q) (hg.reach _) (own_p ho) he)
      obtain ⟨L', h1, h2⟩ := tot_sub (τ := T q) (j := 0) hg hL hm hco hf' hmo (by omega) rfl
      refine ⟨L', h1, ?_⟩
      simp only [change] at *
      split at hpr <;> split at hpr <;> simp_all <;> omega
  | @deliver T n u k p a m t o σ' hr hm hq hs ha he ih =>
    obtain ⟨L, hL, hb⟩ := ih
    have hg := (hr.reach h0).g
    have hf' : Fresh σ' := (Reach.step _ (hg.reach (a :: p)) ha he).base.1
    have hco : Co (s.conf (a :: p)) (lf s (a :: p)) (wD m - 1) (T (a :: p)) σ' := co_parent (o := o) (by cases m <;> rfl) he (hg.reach _).base.1
    have ht := todo_taken (l := lf s p) (hg.reach p).base.1 hq
    obtain ⟨L', h1, h2⟩ := tot_sub (τ := taken a (T p)) (j := -(wD m)) hg hL hm hco hf' (deliver_mono (conf_sub s a p) hs he) (by omega) rfl
    rw [← change_taken] at h1 h2
    exact ⟨L', h1, by omega⟩
  | @lost T n u k p a m t hr hm hq hs ih =>
    obtain ⟨L, hL, hb⟩ := ih
    have hg := (hr.reach h0).g
    have ht := todo_taken (l := lf s p) (hg.reach p).base.1 hq
    have hw := wD_pos m
    have hk : ∀ x, ((put T p (taken a (T p))) x).kid = (T x).kid := fun x => by
      by_cases hx : x = p
      · subst hx; rw [put_self]; rfl
      · rw [put_ne _ _ hx]
    have hmem : ∀ x, Member s (put T p (taken a (T p))) x ↔ Member s T x := by
      intro x
      induction x with
      | nil => exact Iff.rfl
      | cons b y ih => simp only [Member, ih, hk]
    refine ⟨L, ⟨hL.nodup, fun x => by rw [hmem, hL.mem]⟩, ?_⟩
    have h1 := sumL_at (f := fun x => todo (lf s x) (T x)) (g := fun x => todo (lf s x) (put T p (taken a (T p)) x)) (p := p) hL.nodup
      ((hL.mem p).2 hm.1) (fun x hx => by simp only [put_ne _ _ hx])
    simp only [put_self] at h1
    unfold Verif.Tree.tot at *
    omega

/-- the number of steps is bounded by the number of actors created and the steps user code has caused -/
theorem C53_bounded {n u m : Nat} (h : TRun s φ (.init s) T n u m) : n ≤ 43 * (u + m + 1) := by
  obtain ⟨L, _, h1⟩ := TRun.tot .init cover_init h
  rw [tot_init] at h1
  omega

theorem TReach.run (h : TReach s φ T) : ∃ n u m, TRun s φ (.init s) T n u m := by
  induction h with
  | init => exact ⟨0, 0, 0, .refl⟩
  | own p op σ' _ hm ho ha he ih => obtain ⟨n, u, m, ih⟩ := ih; exact ⟨_, _, _, .own p op σ' ih hm ho ha he⟩
  | deliver p a m t o σ' _ hm hq hs ha he ih => obtain ⟨n, u, k, ih⟩ := ih; exact ⟨_, _, _, .deliver p a m t o σ' ih hm hq hs ha he⟩
  | lost p a m t _ hm hq hs ih => obtain ⟨n, u, k, ih⟩ := ih; exact ⟨_, _, _, .lost p a m t ih hm hq hs⟩

/-- from any state reached: left alone, the tree comes to rest after at most `b` steps -/
theorem C53_rest (h0 : TReach s φ T0) : ∃ b, ∀ T n u m, TRun s φ T0 T n u m → n ≤ b + 43 * (u + m) := by
  obtain ⟨n, u, m, hr⟩ := h0.run
  obtain ⟨L, hL, _⟩ := TRun.tot .init cover_init hr
  refine ⟨Verif.Tree.tot s T0 L, fun T n u m h => ?_⟩
  obtain ⟨_, _, h1⟩ := TRun.tot h0 hL h
  omega

/-! ## it goes on until nothing is left to be done -/

def Req (v : View) : Prop := v.k.asked = true → v.k.ans = false → v.k.ireq = true

theorem Req.step {c : Conf} {v w : View} (h : Req v) (st : VStep c φ v w) : Req w := by
  unfold Req at *
  cases st <;> (try exact h) <;> simp_all <;> grind [Kid.new]

theorem asked_req {c : Conf} {σ : State} (hr : Reach c φ σ) (a : Nat) (h1 : (σ.kid a).asked = true) (h2 : (σ.kid a).ans = false) : (σ.kid a).ireq = true :=
  hr.keeps (P := Req) a (by intro h; simp [view, State.init, Kid.no] at h) (fun _ _ hv st => hv.step st) h1 h2

theorem recv_ok {c : Conf} {σ : State} (hn : φ.nt = true) (hr : Reach c φ σ) (o : Ora) : ∃ σ', step c σ (.recv o) = .ok σ' := by
  cases he : step c σ (.recv o) with
  | ok σ' => exact ⟨σ', rfl⟩
  | error e =>
    simp only [step] at he
    split at he
    · simp at he
    · rename_i m t hq
      split at he
      · simp at he
      · obtain ⟨σ2, h2⟩ := handle_ok (c := c) (m := m) (o := o) (σ := { σ with q := t }) (fun a k hm => by
          subst hm
          have hp := push_eq hq
          have hi := hr.inv a
          have hd := hr.d hn a
          rw [hp] at hi hd
          exact onKid_ok hi hd)
        rw [h2] at he
        simp at he

/-- nobody creates anything, and everything goes well -/
def calm : Ora := ⟨true, true, 0, false, false, 0, false, true⟩

/-- the restart that is due, if any, is one the flags allow -/
def Allowed (φ : Fl) (σ : State) : Prop :=
  ∀ a t, σ.q = .kid a .spawn :: t → ∀ r, σ.recs.find a = some r → r.info.active = true →
    (φ.ns = true → σ.st.rank < 5) ∧ (φ.nm = true → σ.st ≠ .initialized) ∧ (φ.no = true → σ.st ≠ .operational)

/-- as long as something is going on there is a next step, and user code is not needed for it -/
theorem C53_next (hn : φ.nt = true) (hx : φ.nd = false ∧ φ.nk = false ∧ φ.nj = false) (h : TReach s φ T) (hs : ¬ Settled s T)
    (hb : ∀ p, Member s T p → Allowed φ (T p)) : ∃ T' m, TRun s φ T T' 1 0 m := by
  have hg := h.g
  have own : ∀ p op σ', Member s T p → Own s p (T p) op → Adm φ (T p) op → step (s.conf p) (T p) op = .ok σ' → idle (T p) op = false → user op = false →
      ∃ T' m, TRun s φ T T' 1 0 m := by
    intro p op σ' hm ho ha he h1 h2
    have := TRun.own p op σ' (TRun.refl (s := s) (φ := φ) (T0 := T)) hm ho ha he
    simp only [h1, h2] at this
    exact ⟨_, _, this⟩
  have key : (∃ p, Member s T p ∧ (T p).q ≠ []) ∨ (∃ p a, Member s T p ∧ (T p).to a ≠ []) ∨ (∃ p a, Member s T p ∧ (T p).out a ≠ []) ∨
      (∃ p σ', Member s T p ∧ step (s.conf p) (T p) .finish = .ok σ') ∨
      ∃ p a, Member s T p ∧ s.sup (a :: p) = false ∧ (Busy (T p) a ∨ ((T p).kid a).st = .shuttingDown) := by
    refine Classical.byContradiction (fun hc => hs ?_)
    simp only [not_or, not_exists, not_and] at hc
    obtain ⟨c1, c2, c3, c4, c5⟩ := hc
    refine ⟨fun p hm => ⟨?_, fun a => ?_, fun a => ?_⟩, fun p hm σ' he => c4 p σ' hm he, fun p a hm hl => c5 p a hm hl⟩
    · exact Classical.byContradiction (c1 p hm)
    · exact Classical.byContradiction (c2 p a hm)
    · exact Classical.byContradiction (c3 p a hm)
  rcases key with ⟨p, hm, hq⟩ | ⟨p, a, hm, hq⟩ | ⟨p, a, hm, hq⟩ | ⟨p, σ', hm, he⟩ | ⟨p, a, hm, hl, hk⟩
  · obtain ⟨σ', he⟩ := recv_ok hn (hg.reach p) calm
    refine own p (.recv calm) σ' hm trivial ?_ he (by simp [idle, hq]) rfl
    refine ⟨fun _ => rfl, fun _ => rfl, fun _ => rfl, fun m t _ => ⟨⟨?_, ?_⟩, ?_⟩, hb p hm⟩ <;> simp [hx]
  · by_cases hk : s.sup (a :: p) = false ∨ ((T p).kid a).born = false
    · have : ∃ σ', step (s.conf p) (T p) (.kidRecv a false) = .ok σ' := by
        simp only [step]; unfold kidRecv
        split
        · exact ⟨_, rfl⟩
        · simp only
          split
          · exact ⟨_, rfl⟩
          · split <;> exact ⟨_, rfl⟩
      obtain ⟨σ', he⟩ := this
      exact own p (.kidRecv a false) σ' hm hk trivial he (by simp [idle, hq]) rfl
    · simp only [not_or, Bool.not_eq_false] at hk
      have hm2 : Member s T (a :: p) := ⟨hm, hk.1, hk.2⟩
      cases ht : (T p).to a with
      | nil => exact absurd ht hq
      | cons m t =>
        by_cases h6 : (T (a :: p)).st = .shutDown
        · exact ⟨_, _, .lost p a m t .refl hm2 ht (.inr h6)⟩
        · obtain ⟨σ', he⟩ := C53_deliverable h hm2 ht h6 calm
          refine ⟨_, _, .deliver p a m t calm σ' .refl hm2 ht h6 ?_ he⟩
          cases m with
          | initReq => exact ⟨fun _ => rfl, fun _ => rfl⟩
          | start => trivial
          | shutReq => exact ⟨hx.1, fun _ => rfl⟩
  · have : ∃ σ', step (s.conf p) (T p) (.flush a) = .ok σ' := by
      simp only [step]
      split <;> exact ⟨_, rfl⟩
    obtain ⟨σ', he⟩ := this
    exact own p (.flush a) σ' hm trivial trivial he (by simp [idle, hq]) rfl
  · exact own p .finish σ' hm trivial trivial he rfl rfl
  · have hv := (hg.reach p).inv a
    have hborn : ((T p).kid a).born = true := by
      cases hbn : ((T p).kid a).born with
      | true => rfl
      | false =>
        have := (hv.a.unb hbn).1
        simp only [view] at this
        rcases hk with hk | hk
        · have h2 := hk.2.1
          rw [this] at h2; simp [Kid.no] at h2
        · rw [this] at hk; simp [Kid.no] at hk
    rcases hk with hk | hk
    · have hreq := asked_req (hg.reach p) a hk.2.1 hk.2.2
      have : ∃ σ', step (s.conf p) (T p) (.kidInit a true false) = .ok σ' := by
        simp only [step]
        rw [if_pos ⟨hborn, hreq, by rw [hk.1]; decide, fun _ => hk.1⟩]
        exact ⟨_, rfl⟩
      obtain ⟨σ', he⟩ := this
      exact own p (.kidInit a true false) σ' hm (.inl hl) trivial he rfl rfl
    · have : ∃ σ', step (s.conf p) (T p) (.kidShut a) = .ok σ' := by
        simp only [step]
        rw [if_pos ⟨hborn, hk⟩]
        exact ⟨_, rfl⟩
      obtain ⟨σ', he⟩ := this
      exact own p (.kidShut a) σ' hm (.inl hl) trivial he rfl rfl

/-- an execution that goes on only if user code does something has ended well -/
theorem C53_outcome (hf : Fair s φ) (hn : φ.nt = true) (hx : φ.nd = false ∧ φ.nk = false ∧ φ.nj = false) (h : TReach s φ T)
    (hb : ∀ p, Member s T p → Allowed φ (T p)) (hs : ¬ ∃ T' m, TRun s φ T T' 1 0 m) :
    ((T []).st = .operational ∧ All s T (fun x => x = .operational ∨ x = .shutDown)) ∨ All s T (fun x => x = .shutDown) :=
  C53_ends_partial hf h (Classical.byContradiction (fun hc => hs (C53_next hn hx h hc hb)))

/-! ## and then nothing happens any more -/

/-- no timer of an init request is running, and no actor has an init request left to answer -/
structure Idle (s : Sys) (T : Tree) : Prop where
  self : ∀ p, Member s T p → (T p).selfIA = false
  timer : ∀ p, Member s T p → ∀ a, (T p).iA a = false
  req : ∀ p, Member s T p → ∀ a, s.sup (a :: p) = false → ((T p).kid a).ireq = false

theorem change_same (hg : G s φ T) {p : Path} (hm : Member s T p) : change T p (T p) = T := by
  cases p with
  | nil => funext x; simp only [change, put]; split <;> simp_all
  | cons a q =>
    have hk := hg.cons q a hm.2.1 hm.2.2
    have hr : report (T (a :: q)) (T (a :: q)) = [] := by simp [report]
    have e : seen a (T (a :: q)) (T (a :: q)) (T q) = T q := by
      have := look_nil (T q) a
      unfold look at this
      unfold seen
      rw [hr, ← hk]; exact this
    funext x
    simp only [change, put, e]
    split
    · rename_i h; rw [h]
    · split
      · rename_i h; rw [h]
      · rfl

theorem tail_same {σ : State} (h : σ.q = []) : { σ with q := σ.q.tail } = σ := by
  cases σ
  simp_all

/-- a tree at rest stays as it is until user code does something -/
theorem C53_still (h : TReach s φ T) (hs : Settled s T) (hi : Idle s T) {n m : Nat} (hr : TRun s φ T T' n 0 m) : T' = T ∧ n = 0 := by
  have hg := h.g
  have key : ∀ {T' n u m}, TRun s φ T T' n u m → u = 0 → T' = T ∧ n = 0 := by
    intro T' n u m hr
    induction hr with
    | refl => intro _; exact ⟨rfl, rfl⟩
    | own p op σ' _ hm ho ha he ih =>
      intro hu
      have hu1 : user op = false := by
        cases hx : user op with
        | false => rfl
        | true => rw [hx] at hu; simp at hu
      obtain ⟨rfl, rfl⟩ := ih (by omega)
      have hq := hs.quiet p hm
      have same : ∀ T2, G s φ T2 → Member s T2 p → σ' = T2 p → idle (T2 p) op = true → change T2 p σ' = T2 ∧ 0 + (if idle (T2 p) op then 0 else 1) = 0 :=
        fun T2 hg hm h1 h2 => ⟨by rw [h1, change_same hg hm], by rw [h2]; rfl⟩
      cases op with
      | recv o =>
        simp only [step, hq.q] at he
        cases he
        exact same _ hg hm rfl (by simp [idle, hq.q])
      | drop =>
        simp only [step] at he
        split at he
        · cases he
          refine same _ hg hm ?_ (by simp [idle, hq.q])
          exact tail_same hq.q
        · cases he
      | initTmoSelf =>
        simp only [step, hi.self p hm] at he
        simp at he
      | finish => exact absurd he (hs.done p hm σ')
      | kidRecv a l =>
        simp only [step, kidRecv, hq.to a] at he
        cases he
        exact same _ hg hm rfl (by simp [idle, hq.to a])
      | kidInit a ok keep =>
        simp only [step] at he
        split at he
        · rename_i hk
          have hsup : s.sup (a :: p) = false := by
            rcases ho with ho | ho
            · exact ho
            · rw [ho] at hk; simp at hk
          have := hi.req p hm a hsup
          rw [this] at hk
          simp at hk
        · cases he
      | kidShut a =>
        simp only [step] at he
        split at he
        · rename_i hk
          have hsup : s.sup (a :: p) = false := by
            rcases ho with ho | ho
            · exact ho
            · rw [ho] at hk; simp at hk
          exact absurd hk.2 (hs.leaf p a hm hsup).2
        · cases he
      | flush a =>
        simp only [step, hq.out a] at he
        cases he
        exact same _ hg hm rfl (by simp [idle, hq.out a])
      | initTmo a =>
        simp only [step, hi.timer p hm a] at he
        simp at he
      | pInit o => exact absurd ho (by simp [Own])
      | pStart => exact absurd ho (by simp [Own])
      | pShut o => exact absurd ho (by simp [Own])
      | create | spawn | fired | down | escalate | contInit | cont | kidDown => simp [user] at hu1
    | deliver p a m t o σ' _ hm hq _ _ _ ih =>
      intro hu
      obtain ⟨rfl, rfl⟩ := ih hu
      rw [(hs.quiet p hm.1).to a] at hq
      simp at hq
    | lost p a m t _ hm hq _ ih =>
      intro hu
      obtain ⟨rfl, rfl⟩ := ih hu
      rw [(hs.quiet p hm.1).to a] at hq
      simp at hq
  exact key hr rfl

end Verif.Tree
