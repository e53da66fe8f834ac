import Verif.Children.Step
/-!
# How much there is still to be done

A number for each state of a supervisor: what is in its queue, what its children have to do, and what it has to do itself. Every step that
nobody outside has caused makes it smaller (`Verif.Children.Cost`).
-/

namespace Verif.Children
open Verif

variable {c : Conf} {lf : Nat → Bool}

/-- the weight of a message about a child -/
def wK : KM → Nat
  | .create => 13
  | .spawn => 6
  | .initRes _ => 4
  | .initErr => 4
  | .trigger => 1
  | .shutRes => 11
  | .unsub => 10

/-- the weight of a message to the supervisor -/
def wQ : SMsg → Nat
  | .kid _ m => wK m
  | .trigSelf => 3
  | .initReqSelf => 7
  | .initResSelf _ => 4
  | .initErrSelf => 4
  | .startSelf => 1

/-- the weight of a message to a child -/
def wD : Dn → Nat
  | .initReq => 7
  | .start => 1
  | .shutReq => 1

def qs (q : List SMsg) : Nat := (q.map wQ).sum
def ds (q : List Dn) : Nat := (q.map wD).sum
/-- messages of a child that have not arrived -/
def os (q : List KM) : Nat := (q.map (fun m => wK m + 1)).sum

def bw (b : Bool) (n : Nat) : Nat := if b then n else 0

@[simp] theorem bw_true (n : Nat) : bw true n = n := rfl
@[simp] theorem bw_false (n : Nat) : bw false n = 0 := rfl
theorem bw_le (b : Bool) (n : Nat) : bw b n ≤ n := by cases b <;> simp

/-- a child that is not a supervisor of the tree has to shut down, and to answer its init request -/
def kp (k : Kid) : Nat := bw (k.born && decide (k.st ≠ .shutDown)) 13 + bw k.ireq 6

/-- a child that can be asked to shut down -/
def rp : Option Rec → Nat
  | some r => bw (r.act && decide (r.shut = .none)) 2
  | none => 0

/-- it may get a start message -/
def sp (s : AState) : Nat := bw (decide (s.rank < 4)) 1

/-- the supervisor has to shut down -/
def se : AState → Nat
  | .shutDown => 0
  | _ => 13

/-- the supervisor has answered the shutdown request -/
def sd : AState → Nat
  | .shutDown => 12
  | _ => 0

theorem sp_le (s : AState) : sp s ≤ 1 := bw_le _ _

/-- what there is to be done about one child; `lf`: it is not a supervisor of the tree -/
def pk (lf : Nat → Bool) (σ : State) (a : Nat) : Nat :=
  bw (lf a) (kp (σ.kid a)) + ds (σ.to a) + os (σ.out a) + bw (σ.iA a) 5 + rp (σ.recs.find a) + sp σ.st

def sumTo (f : Nat → Nat) : Nat → Nat
  | 0 => 0
  | n + 1 => sumTo f n + f n

/-- about all children -/
def ks (lf : Nat → Bool) (σ : State) : Nat := sumTo (pk lf σ) σ.nx

/-- about the supervisor itself -/
def ss (σ : State) : Nat := bw σ.initReq 6 + bw σ.selfIA 5 + se σ.st

/-- what it has told its parent so far -/
def ws (c : Conf) (σ : State) : Nat :=
  bw (!c.root) (2 * σ.wants + 5 * (σ.initOks + σ.initFails) + sd σ.st)

/-- there is to be done -/
def todo (lf : Nat → Bool) (σ : State) : Nat := qs σ.q + ks lf σ + ss σ

theorem sumTo_le {f g : Nat → Nat} : ∀ {n : Nat}, (∀ a, a < n → f a ≤ g a) → sumTo f n ≤ sumTo g n := by
  intro n
  induction n with
  | zero => intro _; exact Nat.le_refl _
  | succ n ih =>
    intro h
    have h1 := ih (fun a ha => h a (by omega))
    have h2 := h n (by omega)
    simp only [sumTo]; omega

theorem sumTo_at {f g : Nat → Nat} (a k : Nat) (hk : f a ≤ g a + k) : ∀ {n : Nat}, (∀ b, b ≠ a → f b ≤ g b) → sumTo f n ≤ sumTo g n + k := by
  intro n h
  induction n with
  | zero => simp [sumTo]
  | succ n ih =>
    simp only [sumTo]
    by_cases he : n = a
    · subst he
      have h1 : sumTo f n ≤ sumTo g n := sumTo_le (fun b hb => h b (by omega))
      omega
    · have := h n he
      omega

theorem sumTo_dec {f g : Nat → Nat} {a k : Nat} (hk : f a + k ≤ g a) : ∀ {n : Nat}, a < n → (∀ b, b ≠ a → f b ≤ g b) →
    sumTo f n + k ≤ sumTo g n := by
  intro n
  induction n with
  | zero => intro h; omega
  | succ n ih =>
    intro ha h
    simp only [sumTo]
    by_cases he : n = a
    · subst he
      have h1 : sumTo f n ≤ sumTo g n := sumTo_le (fun b hb => h b (by omega))
      omega
    · have := h n he
      have := ih (by omega) h
      omega

/-- a step, or a part of one, adds at most `k`; 30 for each new child -/
structure Co (c : Conf) (lf : Nat → Bool) (k : Int) (σ σ' : State) : Prop where
  pot : (todo lf σ' + ws c σ' : Int) - 30 * σ'.nx ≤ (todo lf σ + ws c σ : Int) - 30 * σ.nx + k
  nx : σ.nx ≤ σ'.nx
  born : ∀ a, a < σ.nx → (σ'.kid a).born = (σ.kid a).born

theorem Co.trans {k l m : Int} {x y z : State} (h : Co c lf k x y) (h2 : Co c lf l y z) (hm : k + l ≤ m) : Co c lf m x z where
  pot := by have := h.pot; have := h2.pot; omega
  nx := Nat.le_trans h.nx h2.nx
  born a ha := by rw [h2.born a (Nat.lt_of_lt_of_le ha h.nx), h.born a ha]

theorem Co.refl (σ : State) : Co c lf 0 σ σ := ⟨by omega, Nat.le_refl _, fun _ _ => rfl⟩

theorem Co.le {k l : Int} {x y : State} (h : Co c lf k x y) (hl : k ≤ l) : Co c lf l x y := ⟨by have := h.pot; omega, h.nx, h.born⟩

/-- nothing new -/
theorem Co.of {k l m : Int} {σ σ' : State} (hn : σ'.nx = σ.nx) (hb : ∀ a, (σ'.kid a).born = (σ.kid a).born)
    (hk : (ks lf σ' : Int) ≤ ks lf σ + k) (hq : (qs σ'.q + ss σ' + ws c σ' : Int) ≤ qs σ.q + ss σ + ws c σ + l) (hm : k + l ≤ m) :
    Co c lf m σ σ' where
  pot := by simp only [todo]; rw [hn]; omega
  nx := by omega
  born a _ := hb a

theorem ks_le {σ σ' : State} (hn : σ'.nx = σ.nx) (h : ∀ a, pk lf σ' a ≤ pk lf σ a) : (ks lf σ' : Int) ≤ ks lf σ + 0 := by
  have := sumTo_le (f := pk lf σ') (g := pk lf σ) (n := σ.nx) (fun a _ => h a)
  simp only [ks, hn]; omega

theorem ks_at {σ σ' : State} (hn : σ'.nx = σ.nx) (a : Nat) (k : Nat) (hk : pk lf σ' a ≤ pk lf σ a + k) (h : ∀ b, b ≠ a → pk lf σ' b ≤ pk lf σ b) :
    (ks lf σ' : Int) ≤ ks lf σ + k := by
  have := sumTo_at (f := pk lf σ') (g := pk lf σ) a k hk (n := σ.nx) h
  simp only [ks, hn]; omega

theorem ks_dec {σ σ' : State} (hn : σ'.nx = σ.nx) {a : Nat} (k : Nat) (ha : a < σ.nx) (hk : pk lf σ' a + k ≤ pk lf σ a)
    (h : ∀ b, b ≠ a → pk lf σ' b ≤ pk lf σ b) : (ks lf σ' : Int) ≤ ks lf σ + (-k) := by
  have := sumTo_dec (f := pk lf σ') (g := pk lf σ) hk ha h
  simp only [ks, hn]; omega

theorem ks_eq {σ σ' : State} (h : ks lf σ' = ks lf σ) : (ks lf σ' : Int) ≤ ks lf σ + 0 := by omega

theorem qs_snoc (q : List SMsg) (m : SMsg) : qs (q ++ [m]) = qs q + wQ m := by simp [qs]
theorem qs_cons (q : List SMsg) (m : SMsg) : qs (m :: q) = wQ m + qs q := by simp [qs]
theorem ds_snoc (q : List Dn) (m : Dn) : ds (q ++ [m]) = ds q + wD m := by simp [ds]
theorem ds_cons (q : List Dn) (m : Dn) : ds (m :: q) = wD m + ds q := by simp [ds]
theorem os_snoc (q : List KM) (m : KM) : os (q ++ [m]) = os q + (wK m + 1) := by simp [os]
theorem os_cons (q : List KM) (m : KM) : os (m :: q) = wK m + 1 + os q := by simp [os]
theorem wQ_pos (m : SMsg) : 1 ≤ wQ m := by cases m <;> simp [wQ]; rename_i m; cases m <;> simp [wK]
theorem wD_pos (m : Dn) : 1 ≤ wD m := by cases m <;> simp [wD]

/-! ## creation -/

theorem co_addKid {r : Rec} {σ : State} (hf : Fresh σ) (τ : State) (hr : ∀ b, b ≠ σ.nx → rp (τ.recs.find b) ≤ rp (σ.recs.find b))
    (hτ : τ = { σ with recs := τ.recs }) : Co c lf (-1) σ (addKid r τ) := by
  have hb := hf σ.nx (Nat.le_refl _)
  have hx : τ.nx = σ.nx := by rw [hτ]
  refine ⟨?_, by simp [addKid, hx], fun a ha => ?_⟩
  · have e1 : pk lf (addKid r τ) σ.nx ≤ 16 := by
      have h1 := hb.t; have h2 := hb.o; have h3 := hb.iA
      simp only [view] at h1 h2 h3
      rw [hτ]
      have i1 := bw_le (lf σ.nx) (kp Kid.new)
      have i2 := bw_le (r.act && decide (r.shut = .none)) 2
      have i3 := sp_le σ.st
      have i4 : kp Kid.new = 13 := rfl
      simp only [pk, addKid, upd, AMap.find_set]
      simp only [h1, h2, h3, ds, os, rp, if_true, bw_false, List.map_nil, List.sum_nil]
      omega
    have e2 : sumTo (pk lf (addKid r τ)) σ.nx ≤ sumTo (pk lf σ) σ.nx := by
      refine sumTo_le (fun a ha => ?_)
      have hn : a ≠ σ.nx := by omega
      have := hr a hn
      rw [hτ]
      simp only [pk, addKid, upd, AMap.find_set]
      simp only [hn, if_false, Ne.symm hn]
      omega
    have e3 : (addKid r τ).nx = σ.nx + 1 := by simp [addKid, hx]
    have e4 : qs (addKid r τ).q = qs σ.q + 13 := by rw [hτ]; simp [addKid, qs_snoc, wQ, wK]
    have e5 : ss (addKid r τ) = ss σ := by rw [hτ]; rfl
    have e6 : ws c (addKid r τ) = ws c σ := by rw [hτ]; rfl
    simp only [todo, ks, e3, e4, e5, e6, sumTo]
    omega
  · have hn : a ≠ σ.nx := by omega
    rw [hτ]; simp [addKid, upd, hn]

theorem co_createN {now : Int} : ∀ {n : Nat} {σ : State}, Fresh σ → Co c lf 0 σ (createN now n σ) := by
  intro n
  induction n with
  | zero => intro σ _; exact .refl σ
  | succ n ih =>
    intro σ hf
    exact (co_addKid hf σ (fun _ _ => Nat.le_refl _) rfl).trans (ih (fresh_addKid hf)) (by omega)

theorem co_createSpawned {a : Nat} {r : Rec} {σ : State} (hf : Fresh σ) : Co c lf (-1) σ (createSpawned a r σ) := by
  refine co_addKid hf _ (fun b _ => ?_) rfl
  simp only [AMap.find_erase]
  split
  · simp [rp]
  · exact Nat.le_refl _

theorem co_spawn {cfg : Spawner.Cfg} {σ : State} (hf : Fresh σ) : Co c lf (-1) σ (spawn cfg σ) := by
  have hb := hf σ.nx (Nat.le_refl _)
  refine ⟨?_, by simp [spawn], fun a ha => rfl⟩
  have e1 : pk lf (spawn cfg σ) σ.nx ≤ 1 := by
    have h1 := hb.t; have h2 := hb.o; have h3 := hb.iA; have h4 := hb.k
    simp only [view] at h1 h2 h3 h4
    have i1 := bw_le (lf σ.nx) (kp Kid.no)
    have i3 := sp_le σ.st
    have i4 : kp Kid.no = 0 := rfl
    simp only [pk, spawn, AMap.find_set]
    simp only [h1, h2, h3, h4, ds, os, rp, if_true, bw_false, List.map_nil, List.sum_nil, Bool.false_and]
    omega
  have e2 : sumTo (pk lf (spawn cfg σ)) σ.nx ≤ sumTo (pk lf σ) σ.nx := by
    refine sumTo_le (fun a ha => ?_)
    have hn : a ≠ σ.nx := by omega
    simp only [pk, spawn, AMap.find_set]
    simp [hn, Ne.symm hn]
  have e3 : (spawn cfg σ).nx = σ.nx + 1 := rfl
  have e4 : qs (spawn cfg σ).q = qs σ.q + 6 := by simp [spawn, qs_snoc, wQ, wK]
  have e5 : ss (spawn cfg σ) = ss σ := rfl
  have e6 : ws c (spawn cfg σ) = ws c σ := rfl
  simp only [todo, ks, e3, e4, e5, e6, sumTo]
  omega

/-! ## the supervisor itself -/

theorem co_failInit {σ : State} (h : σ.initReq = true) : Co c lf (-1) σ (failInit c σ) := by
  refine .of (k := 0) (l := -1) rfl (fun _ => rfl) (ks_eq rfl) ?_ (by omega)
  cases hr : c.root <;> simp [failInit, ss, ws, h, hr, qs_snoc, wQ] <;> omega

theorem co_initFinish {σ : State} (h : σ.initReq = true) (hs : σ.st = .initializing) : Co c lf (-1) σ (initFinish c σ) := by
  refine .of (k := 0) (l := -1) rfl (fun _ => rfl) (ks_le rfl (fun a => ?_)) ?_ (by omega)
  · simp only [pk, initFinish, hs]; exact Nat.le_refl _
  · cases hr : c.root <;> simp [initFinish, ss, ws, h, hr, hs, qs_snoc, wQ, se, sd] <;> omega

theorem co_doShutdownSelf (σ : State) : Co c lf 3 σ (doShutdownSelf c σ) := by
  unfold doShutdownSelf
  split
  · refine .of (k := 0) (l := 3) rfl (fun _ => rfl) (ks_eq rfl) ?_ (by omega)
    cases hr : c.root <;> simp [ss, ws, hr, qs_snoc, wQ] <;> omega
  · exact (Co.refl σ).le (by omega)

theorem co_doShutdownSub (hc : c.root = false) (σ : State) : Co c lf 2 σ (doShutdownSelf c σ) := by
  unfold doShutdownSelf
  split
  · refine .of (k := 0) (l := 2) rfl (fun _ => rfl) (ks_eq rfl) ?_ (by omega)
    simp [ss, ws, hc]; omega
  · exact (Co.refl σ).le (by omega)

theorem co_rOff (σ : State) : Co c lf 0 σ { σ with rInit := false } := .of (k := 0) (l := 0) rfl (fun _ => rfl) (ks_eq rfl) (by simp [ss, ws]) (by omega)

theorem createN_same (now : Int) : ∀ (n : Nat) (σ : State), (createN now n σ).initReq = σ.initReq ∧ (createN now n σ).st = σ.st := by
  intro n
  induction n with
  | zero => intro σ; exact ⟨rfl, rfl⟩
  | succ n ih => intro σ; exact ih (createChild now σ)

theorem co_actorInitContinue {o : Ora} {σ σ' : State} (h : actorInitContinue c o σ = .ok σ') (hf : Fresh σ) : Co c lf 0 σ σ' := by
  unfold actorInitContinue at h
  split at h
  · rename_i h0
    split at h
    · cases h; exact .refl σ
    · have hf1 : Fresh { σ with rInit := false } := fresh_of hf rfl (fun a _ => rfl)
      have h1 : Co c lf 0 σ (createN o.now o.late { σ with rInit := false }) := (co_rOff σ).trans (co_createN hf1) (by omega)
      have h2 := createN_same o.now o.late { σ with rInit := false }
      simp only at h
      split at h
      · cases h
        exact h1.trans (co_initFinish (h2.1.trans h0.2) (h2.2.trans h0.1)) (by omega)
      · cases h; exact h1
  · cases h

theorem co_initContinue {o : Ora} {σ σ' : State} (h : initContinue c o σ = .ok σ') (hf : Fresh σ) : Co c lf 0 σ σ' := by
  unfold initContinue at h
  split at h
  · have hf1 : Fresh { σ with rInit := false } := fresh_of hf rfl (fun a _ => rfl)
    exact (co_rOff σ).trans (co_actorInitContinue h hf1) (by omega)
  · cases h; exact .refl σ

theorem rp_ask (r : Rec) : rp (some (askRec r)) + (if asks r then 2 else 0) ≤ rp (some r) := by
  unfold rp askRec asks
  cases h1 : r.act <;> cases h2 : r.shut <;> simp [h1, h2] <;> (try split) <;> simp [h1]

theorem co_askAll (σ : State) : Co c lf 0 σ (askAll σ) := by
  refine .of (k := 0) (l := 0) rfl (fun _ => rfl) (ks_le rfl (fun a => ?_)) (by simp [askAll, ss, ws]) (by omega)
  have e := find_askAll σ a
  have h1 : rp ((askAll σ).recs.find a) + (if asksOf σ a then 2 else 0) ≤ rp (σ.recs.find a) := by
    rw [e]; unfold asksOf
    cases hr : σ.recs.find a with
    | none => simp [rp]
    | some r => exact rp_ask r
  have h2 : ds ((askAll σ).to a) ≤ ds (σ.to a) + (if asksOf σ a then 2 else 0) := by
    simp only [askAll]
    cases asksOf σ a <;> simp [ds_snoc, wD]
  have h3 : bw ((askAll σ).iA a) 5 ≤ bw (σ.iA a) 5 := by
    simp only [askAll]
    split
    · simp
    · exact Nat.le_refl _
  have h4 : (askAll σ).kid a = σ.kid a := rfl
  have h5 : (askAll σ).out a = σ.out a := rfl
  have h6 : (askAll σ).st = σ.st := rfl
  simp only [pk, h4, h5, h6]
  omega

theorem co_handleShutdown (σ : State) : Co c lf 0 σ (handleShutdown σ) := by
  have h1 : Co c lf 0 σ { σ with selfShut := .confirmed } := .of (k := 0) (l := 0) rfl (fun _ => rfl) (ks_eq rfl) (by simp [ss, ws]) (by omega)
  have h2 := h1.trans (co_askAll { σ with selfShut := .confirmed }) (m := 0) (by omega)
  unfold handleShutdown
  simp only
  split
  · exact h2
  · exact h2.trans (.of (k := 0) (l := 0) (m := 0) rfl (fun _ => rfl) (ks_eq rfl) (by simp [ss, ws]) (by omega)) (by omega)

theorem co_shutdownContinue {o : Ora} {σ σ' : State} (h : shutdownContinue o σ = .ok σ') : Co c lf 0 σ σ' := by
  unfold shutdownContinue at h
  split at h
  · split at h
    · split at h
      · cases h; exact .refl σ
      · cases h; exact co_handleShutdown σ
    · cases h; exact .refl σ
  · cases h

theorem co_continueIf {o : Ora} {σ σ' : State} (h : continueIf o σ = .ok σ') : Co c lf 0 σ σ' := by
  unfold continueIf at h
  split at h
  · exact co_shutdownContinue h
  · cases h; exact .refl σ

theorem co_startShutdown {σ : State} (h : σ.st ≠ .shutDown) : Co c lf 0 σ (startShutdown σ) := by
  refine .of (k := 0) (l := 0) rfl (fun _ => rfl) (ks_le rfl (fun a => ?_)) ?_ (by omega)
  · have : sp .shuttingDown = 0 := rfl
    simp only [pk, startShutdown, this]
    omega
  · generalize hx : σ.st = x at h
    cases x <;> simp_all [startShutdown, ss, ws, se, sd]

/-! ## messages about children -/

theorem co_setRec {σ : State} {a : Nat} {r : Rec} (k : Nat) (hr : rp (some r) ≤ rp (σ.recs.find a) + k) : Co c lf k σ (σ.setRec a r) := by
  have h1 : (ks lf (σ.setRec a r) : Int) ≤ ks lf σ + k := by
    refine ks_at (σ := σ) (σ' := σ.setRec a r) rfl a k ?_ (fun b hb => ?_)
    · simp only [pk, State.setRec, AMap.find_set, if_true]; omega
    · simp [pk, State.setRec, AMap.find_set, hb, Ne.symm hb]
  have h2 : ss (σ.setRec a r) = ss σ := rfl
  have h3 : ws c (σ.setRec a r) = ws c σ := rfl
  have h4 : (σ.setRec a r).q = σ.q := rfl
  exact .of rfl (fun _ => rfl) h1 (l := 0) (by rw [h2, h3, h4]; omega) (by omega)

theorem co_removePolicy (r : Rec) (σ : State) : Co c lf 3 σ (removePolicy c r σ) := by
  unfold removePolicy
  split
  · split
    · split
      · rename_i h; exact (co_failInit h).le (by omega)
      · exact (Co.refl σ).le (by omega)
    · exact co_doShutdownSelf σ
  · exact (Co.refl σ).le (by omega)

theorem co_cancelInit (a : Nat) (σ : State) : Co c lf 0 σ (cancelInit a σ) := by
  unfold cancelInit
  split
  · refine .of (k := 0) (l := 0) rfl (fun _ => rfl) (ks_le rfl (fun b => ?_)) (by simp [ss, ws]) (by omega)
    simp only [pk, upd]
    by_cases hb : b = a
    · simp only [hb, if_true]; simp
    · simp only [hb, if_false]; exact Nat.le_refl _
  · exact .refl σ

theorem co_recs {σ : State} {m : AMap Nat Rec} {q : List SMsg} (k : Nat) (hr : ∀ b, rp (m.find b) ≤ rp (σ.recs.find b)) (hq : qs q ≤ qs σ.q + k) :
    Co c lf k σ { σ with recs := m, q := q } := by
  refine .of (k := 0) (l := k) rfl (fun _ => rfl) (ks_le rfl (fun b => ?_)) (by simp [ss, ws]; omega) (by omega)
  have := hr b
  simp only [pk]; omega

theorem co_removeRec {a : Nat} {r : Rec} {o : Ora} {σ : State} : Co c lf 6 σ (removeRec a r o σ) := by
  have he : ∀ b, rp ((σ.recs.erase a).find b) ≤ rp (σ.recs.find b) := fun b => by
    rw [AMap.find_erase]; split
    · simp [rp]
    · exact Nat.le_refl _
  have hs : ∀ (x : Rec), x.act = false → ∀ b, rp ((σ.recs.set a x).find b) ≤ rp (σ.recs.find b) := fun x hx b => by
    rw [AMap.find_set]; split
    · simp [rp, hx]
    · exact Nat.le_refl _
  unfold removeRec
  split
  · simp only
    split
    · exact co_recs 6 (hs _ rfl) (by simp [qs_snoc, wQ, wK])
    · exact co_recs 6 he (by simp [qs_snoc, wQ])
    · exact (co_recs (q := σ.q) 6 (hs _ rfl) (by omega))
    · exact (co_recs (q := σ.q) 6 he (by omega))
  · exact (co_recs (q := σ.q) 6 he (by omega))

theorem co_removeChild {a : Nat} {o : Ora} {σ σ' : State} (h : removeChild c a o σ = .ok σ') (hf : Fresh σ) : Co c lf 9 σ σ' := by
  unfold removeChild at h
  split at h
  · cases h
  · rename_i r hr
    split at h
    · have hp := removePolicy_same (c := c) r σ
      have h1 : Co c lf 9 σ (removeRec a r o (cancelInit a (removePolicy c r σ))) :=
        ((co_removePolicy r σ).trans (co_cancelInit a _) (m := 3) (by omega)).trans co_removeRec (by omega)
      have hfr : Fresh (removeRec a r o (cancelInit a (removePolicy c r σ))) := by
        have f1 : Fresh (removePolicy c r σ) := fresh_removePolicy hf
        obtain ⟨r', add, _, _, i3, i4, _⟩ := removeRec_view a r o (cancelInit a (removePolicy c r σ))
        refine fresh_upd f1 (by rw [i4, (cancelInit_same _ _).2]) (fresh_lt f1 (r := r) (by rw [hp.1]; exact hr)) (fun b hb => ?_)
        rw [i3 b hb, view_cancelInit, if_neg hb]
      simp only at h
      split at h
      · split at h
        · cases h
        · rename_i σ2 h2
          exact (h1.trans (co_shutdownContinue h2) (m := 9) (by omega)).trans (co_initContinue h (fresh_shutdownContinue h2 hfr)) (by omega)
      · exact h1.trans (co_initContinue h hfr) (by omega)
    · cases h

end Verif.Children
