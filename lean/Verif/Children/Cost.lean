import Verif.Children.Pot
import Verif.Children.Spec
/-!
# Every step does something of what there is to be done
-/

namespace Verif.Children
open Verif

variable {c : Conf} {lf : Nat → Bool}

theorem co_pop (m : SMsg) (t : List SMsg) {σ : State} (h : σ.q = m :: t) : Co c lf (-(wQ m)) σ { σ with q := t } := by
  refine .of (k := 0) (l := -(wQ m)) rfl (fun _ => rfl) (ks_eq rfl) ?_ (by omega)
  simp only [h, qs_cons, ss, ws]; omega

theorem co_iA (a : Nat) (σ : State) : Co c lf 0 σ { σ with iA := upd σ.iA a false } := by
  refine .of (k := 0) (l := 0) rfl (fun _ => rfl) (ks_le rfl (fun b => ?_)) (by simp [ss, ws]) (by omega)
  simp only [pk, upd]
  by_cases hb : b = a
  · simp only [hb, if_true, bw_false]; omega
  · simp only [hb, if_false]; exact Nat.le_refl _

theorem co_sA (a : Nat) (b : Bool) (σ : State) : Co c lf 0 σ { σ with sA := upd σ.sA a b } :=
  .of (k := 0) (l := 0) rfl (fun _ => rfl) (ks_eq rfl) (by simp [ss, ws]) (by omega)

theorem co_onCreate {a : Nat} {σ σ' : State} (h : onCreate a σ = .ok σ') : Co c lf 12 σ σ' := by
  unfold onCreate at h
  split at h
  · cases h
  · cases h
    refine .of (k := 12) (l := 0) rfl (fun _ => rfl)
      (ks_at (σ := σ) (σ' := { σ with to := upd σ.to a (σ.to a ++ [.initReq]), iA := upd σ.iA a true, nInit := upd σ.nInit a (σ.nInit a + 1) })
        rfl a 12 ?_ (fun b hb => ?_)) (by simp [ss, ws]) (by omega)
    · simp only [pk, upd, if_true, ds_snoc, wD, bw_true]; omega
    · simp [pk, upd, hb]

theorem co_onSpawn {a : Nat} {o : Ora} {σ σ' : State} (h : onSpawn c a o σ = .ok σ') (hf : Fresh σ) : Co c lf 5 σ σ' := by
  unfold onSpawn at h
  split at h
  · cases h
  · rename_i r0 hr0
    split at h
    · simp only at h
      split at h
      · cases h; exact (co_createSpawned hf).le (by omega)
      · have hx : ∀ (τ : State) (x : Rec), Co c lf 2 τ (τ.setRec a x) := fun τ x => co_setRec 2 (by have := bw_le (x.act && decide (x.shut = .none)) 2; simp only [rp]; omega)
        split at h
        · cases h
          refine Co.trans (k := 3) ?_ (hx _ _) (by omega)
          split
          · rename_i hi; exact (co_failInit hi).le (by omega)
          · exact co_doShutdownSelf σ
        · split at h
          · cases h; exact (hx _ _).le (by omega)
          · cases h; exact (hx _ _).le (by omega)
    · cases h; exact (Co.refl σ).le (by omega)

theorem co_onInitErr {a : Nat} {σ σ' : State} (h : onInitErr c a σ = .ok σ') : Co c lf 3 σ σ' := by
  unfold onInitErr at h
  split at h
  · cases h
    split
    · rename_i hi; exact (co_failInit hi).le (by omega)
    · exact co_doShutdownSelf σ
  · split at h
    · cases h; exact co_doShutdownSelf σ
    · split at h
      · cases h
        unfold doShutdownKid
        split
        · exact .of (k := 0) (l := 1) rfl (fun _ => rfl) (ks_eq rfl) (by simp [qs_snoc, wQ, wK, ss, ws]; omega) (by omega)
        · exact (Co.refl σ).le (by omega)
      · cases h

theorem co_onInitOk {a : Nat} {o : Ora} {σ σ' : State} (h : onInitOk c a o σ = .ok σ') (hf : Fresh σ) : Co c lf 1 σ σ' := by
  unfold onInitOk at h
  have key : ∀ σ1, Co c lf 1 σ σ1 → Fresh σ1 → (if hasInit σ then Except.ok σ1 else initContinue c o σ1) = .ok σ' → Co c lf 1 σ σ' := by
    intro σ1 h1 hf1 h
    split at h
    · cases h; exact h1
    · exact h1.trans (co_initContinue h hf1) (by omega)
  refine key _ ?_ ?_ h
  · split
    · exact (Co.refl σ).le (by omega)
    · rename_i r hr
      split
      · exact (co_setRec 0 (by rw [hr]; simp [rp])).le (by omega)
      · refine .of (k := 1) (l := 0) rfl (fun _ => rfl)
          (ks_at (σ := σ) (σ' := { σ with recs := σ.recs.set a { r with initialized := true, started := true }, to := upd σ.to a (σ.to a ++ [.start]), nStart := upd σ.nStart a (σ.nStart a + 1) })
          rfl a 1 ?_ (fun b hb => ?_)) (by simp [ss, ws]) (by omega)
        · simp only [pk, upd, if_true, ds_snoc, wD, AMap.find_set, hr, rp]; omega
        · simp [pk, upd, hb, AMap.find_set, Ne.symm hb]
  · split
    · exact hf
    · rename_i r hr
      split
      · exact fresh_setRec hf hr
      · refine fresh_upd hf rfl (fresh_lt hf hr) (fun b hb => ?_)
        simp [view, upd, hb, AMap.find_set, Ne.symm hb]

theorem co_onTrigger {a : Nat} {σ σ' : State} (h : onTrigger a σ = .ok σ') : Co c lf 0 σ σ' := by
  unfold onTrigger at h
  split at h
  · cases h
  · rename_i r hr
    split at h
    · cases h
    · cases h
      unfold askKid
      split
      · rename_i ha
        have e : rp (some r) = 2 := by
          simp only [asks] at ha
          simp [rp, ha]
        refine .of (k := 0) (l := 0) rfl (fun _ => rfl) (ks_le rfl (fun b => ?_)) (by simp [ss, ws]) (by omega)
        by_cases hb : b = a
        · subst hb
          have : bw ((if (σ.kid b).ireq = true then upd σ.iA b false else σ.iA) b) 5 ≤ bw (σ.iA b) 5 := by
            split
            · simp [upd]
            · exact Nat.le_refl _
          simp only [pk, upd, if_true, ds_snoc, wD, AMap.find_set, hr, e] at *
          simp only [rp] at *
          simp at *
          omega
        · have : (if (σ.kid a).ireq = true then upd σ.iA a false else σ.iA) b = σ.iA b := by
            split
            · simp [upd, hb]
            · rfl
          simp [pk, upd, hb, AMap.find_set, Ne.symm hb, this]
      · exact .refl σ

theorem co_onShutRes {a : Nat} {o : Ora} {σ σ' : State} (h : onShutRes c a o σ = .ok σ') (hf : Fresh σ) : Co c lf 10 σ σ' := by
  unfold onShutRes at h
  split at h
  · cases h
  · rename_i r hr
    split at h
    · have h1 : Co c lf 0 σ (σ.setRec a { r with shut := .confirmed }) := co_setRec 0 (by simp [rp])
      have hf1 := fresh_setRec (r := { r with shut := .confirmed }) hf hr
      simp only at h
      generalize σ.setRec a { r with shut := .confirmed } = σ1 at *
      split at h
      · have h2 : Co c lf 10 σ1 { σ1 with q := σ1.q ++ [.kid a .unsub] } := by
          refine Co.of (k := 0) (l := 10) rfl (fun _ => rfl) (ks_eq rfl) ?_ (by omega)
          simp only [qs_snoc, wQ, wK, ss, ws]; omega
        exact h1.trans (h2.trans (co_continueIf h) (m := 10) (by omega)) (by omega)
      · split at h
        · cases h
        · rename_i σ2 h2
          exact (h1.trans (co_removeChild h2 hf1) (m := 9) (by omega)).trans (co_continueIf h) (by omega)
    · cases h

theorem co_onKid {a : Nat} {m : KM} {o : Ora} {σ σ' : State} (h : onKid c a m o σ = .ok σ') (hf : Fresh σ) : Co c lf (wK m - 1) σ σ' := by
  cases m with
  | create => exact co_onCreate h
  | spawn => exact co_onSpawn h hf
  | initRes ok =>
    simp only [onKid] at h
    split at h
    · split at h
      · exact (co_iA a σ).trans (co_onInitOk h (fresh_iA hf a)) (by simp [wK])
      · exact (co_iA a σ).trans (co_onInitErr h) (by simp [wK])
    · cases h; exact (Co.refl σ).le (by simp [wK])
  | initErr => exact co_onInitErr h
  | trigger => exact (co_onTrigger h).le (by simp [wK])
  | shutRes =>
    simp only [onKid] at h
    split at h
    · exact (co_sA a false σ).trans (co_onShutRes h (fresh_sA hf a)) (by simp [wK])
    · cases h; exact (Co.refl σ).le (by simp [wK])
  | unsub => exact co_removeChild h hf

/-! ## messages about itself -/

theorem co_selfShut (x : Shut) (σ : State) : Co c lf 0 σ { σ with selfShut := x } :=
  .of (k := 0) (l := 0) rfl (fun _ => rfl) (ks_eq rfl) (by simp [ss, ws]) (by omega)

theorem co_selfIA {b : Bool} {σ : State} (hb : b = true → σ.selfIA = true) : Co c lf 0 σ { σ with selfIA := b } := by
  refine .of (k := 0) (l := 0) rfl (fun _ => rfl) (ks_eq rfl) ?_ (by omega)
  cases b
  · simp only [ss, ws, bw_false]; omega
  · simp only [ss, ws, hb rfl]; omega

theorem co_onTrigSelf {o : Ora} {σ σ' : State} (h : onTrigSelf c o σ = .ok σ') (hs : σ.st ≠ .shutDown) : Co c lf 2 σ σ' := by
  unfold onTrigSelf at h
  split at h
  · split at h
    · have h1 : Co c lf 0 σ { σ with selfIA := if σ.initReq then false else σ.selfIA } := co_selfIA (by split <;> simp)
      simp only at h
      split at h
      · cases h; exact h1.trans (co_selfShut .sent _) (by omega)
      · split at h
        · cases h
        · rename_i σ2 h2
          cases h
          refine (h1.trans ((co_selfShut .confirmed _).trans ((co_startShutdown ?_).trans ((co_askAll _).trans ((co_shutdownContinue h2).trans (co_selfShut .sent _)
            (m := 0) (by omega)) (m := 0) (by omega)) (m := 0) (by omega)) (m := 0) (by omega)) (m := 2) (by omega))
          exact hs
    · cases h
      rename_i hr
      exact ((co_doShutdownSub (by simpa using hr) σ).trans (co_selfShut .sent _) (by omega))
  · cases h; exact (Co.refl σ).le (by omega)

theorem co_onInitReq {o : Ora} {σ σ' : State} (h : onInitReq c o σ = .ok σ') (hf : Fresh σ) : Co c lf 6 σ σ' := by
  have h1 : Co c lf 6 σ { σ with initReq := true } := by
    refine .of (k := 0) (l := 6) rfl (fun _ => rfl) (ks_eq rfl) ?_ (by omega)
    simp only [ss, ws, bw_true]; omega
  unfold onInitReq at h
  simp only at h
  split at h
  · exact h1.trans (co_actorInitContinue h (fresh_of hf rfl (fun a _ => rfl))) (by omega)
  · cases h; exact h1

theorem co_onInitResSelf {ok : Bool} {o : Ora} {σ σ' : State} (h : onInitResSelf c ok o σ = .ok σ') (hf : Fresh σ) : Co c lf 3 σ σ' := by
  unfold onInitResSelf at h
  split at h
  · have key : ∀ σ1, Co c lf 1 σ σ1 → Fresh σ1 → (if hasInit σ then Except.ok σ1 else initContinue c o σ1) = .ok σ' → Co c lf 3 σ σ' := by
      intro σ1 h1 hf1 h
      split at h
      · cases h; exact h1.le (by omega)
      · exact h1.trans (co_initContinue h hf1) (by omega)
    refine key _ ?_ ?_ h
    · split
      · refine .of (k := 0) (l := 1) rfl (fun _ => rfl) (ks_eq rfl) ?_ (by omega)
        simp only [ss, ws, qs_snoc, wQ]; omega
      · exact (Co.refl σ).le (by omega)
    · split
      · exact fresh_of hf rfl (fun a _ => view_snoc (fun _ => rfl) σ a)
      · exact hf
  · cases h; exact co_doShutdownSelf σ

theorem co_onStart (σ : State) : Co c lf 0 σ (onStart c σ) := by
  unfold onStart
  split
  · rename_i hi
    split
    · refine .of (k := 0) (l := 0) rfl (fun _ => rfl) (ks_le rfl (fun b => ?_)) (by simp [ss, ws, hi, se, sd]) (by omega)
      have e1 := find_map_val (fun r : Rec => { r with started := true }) b σ.recs
      have e2 : sp .operational = 0 := rfl
      have e3 : sp .initialized = 1 := rfl
      simp only [pk, hi]
      rw [e1, e2, e3]
      cases hr : σ.recs.find b with
      | none => simp
      | some r => simp [rp, ds_snoc, wD]; omega
    · refine .of (k := 0) (l := 0) rfl (fun _ => rfl) (ks_le rfl (fun b => ?_)) (by simp [ss, ws, hi, se, sd]) (by omega)
      have e2 : sp .operational = 0 := rfl
      simp only [pk, hi, e2]
      omega
  · exact .refl σ

theorem co_handle {m : SMsg} {o : Ora} {σ σ' : State} (h : handle c m o σ = .ok σ') (hf : Fresh σ) (hs : σ.st ≠ .shutDown) : Co c lf (wQ m - 1) σ σ' := by
  cases m with
  | kid a m => exact co_onKid h hf
  | trigSelf => exact co_onTrigSelf h hs
  | initReqSelf => exact co_onInitReq h hf
  | initResSelf ok =>
    simp only [handle] at h
    split at h
    · exact (co_selfIA (b := false) (by simp)).trans (co_onInitResSelf h (fresh_of hf rfl (fun a _ => rfl))) (m := 3) (by omega)
    · cases h; exact (Co.refl σ).le (by simp [wQ])
  | initErrSelf => exact co_onInitResSelf h hf
  | startSelf => simp only [handle] at h; cases h; exact co_onStart σ

/-! ## children -/

theorem fresh_to {σ : State} (hf : Fresh σ) {a : Nat} {m : Dn} {t : List Dn} (h : σ.to a = m :: t) : a < σ.nx := by
  refine Nat.lt_of_not_le (fun hx => ?_)
  have := (hf a hx).t
  simp [view, h] at this

theorem fresh_out {σ : State} (hf : Fresh σ) {a : Nat} {m : KM} {t : List KM} (h : σ.out a = m :: t) : a < σ.nx := by
  refine Nat.lt_of_not_le (fun hx => ?_)
  have := (hf a hx).o
  simp [view, h] at this

theorem kp_le {k k' : Kid} (n : Nat) (h : kp k' ≤ kp k + n) (b : Bool) : bw b (kp k') ≤ bw b (kp k) + n := by cases b <;> simp <;> omega

/-- only the child `a` changes: it, and the messages to and from it -/
theorem co_kid {σ : State} (hf : Fresh σ) {a : Nat} (ha : a < σ.nx) {k : Kid} {t : List Dn} {u : List KM} (hb : k.born = (σ.kid a).born) (n : Nat)
    (h : bw (lf a) (kp k) + ds t + os u + n ≤ bw (lf a) (kp (σ.kid a)) + ds (σ.to a) + os (σ.out a)) :
    Co c lf (-n) σ { σ with kid := upd σ.kid a k, to := upd σ.to a t, out := upd σ.out a u } := by
  refine .of (k := -n) (l := 0) rfl (fun b => ?_)
    (ks_dec (σ := σ) (σ' := { σ with kid := upd σ.kid a k, to := upd σ.to a t, out := upd σ.out a u }) rfl n ha ?_ (fun b hb => ?_)) (by simp [ss, ws]) (by omega)
  · simp only [upd]; split
    · rename_i e; rw [e, hb]
    · rfl
  · simp only [pk, upd, if_true]; omega
  · simp [pk, upd, hb]

theorem co_kidRecv {a : Nat} {lost : Bool} {σ σ' : State} (h : kidRecv a lost σ = .ok σ') (hf : Fresh σ) (hl : lf a = true ∨ (σ.kid a).born = false) :
    Co c lf (if (σ.to a).isEmpty then 0 else -1) σ σ' := by
  unfold kidRecv at h
  split at h
  · rename_i ht; cases h; rw [ht]; exact .refl σ
  · rename_i m t ht
    have ha := fresh_to hf ht
    have hm := wD_pos m
    have e0 : (if (σ.to a).isEmpty then (0 : Int) else -1) = -1 := by rw [ht]; rfl
    rw [e0]
    have same : Co c lf (-1) σ { σ with to := upd σ.to a t } := by
      have := co_kid (c := c) (lf := lf) hf ha (k := σ.kid a) (t := t) (u := σ.out a) rfl 1 (by rw [ht, ds_cons]; omega)
      rw [upd_eq, upd_eq] at this
      exact this
    simp only at h
    split at h
    · cases h; exact same
    · rename_i hn
      have hb : (σ.kid a).born = true := by
        cases hx : (σ.kid a).born
        · exact absurd (.inl hx) hn
        · rfl
      have hla : lf a = true := hl.resolve_right (by simp [hb])
      have hsd : (σ.kid a).st ≠ .shutDown := fun hx => hn (.inr (.inl hx))
      have one : ∀ (k : Kid), k.born = (σ.kid a).born → kp k + 1 ≤ kp (σ.kid a) + wD m → Co c lf (-1) σ { σ with kid := upd σ.kid a k, to := upd σ.to a t } := by
        intro k h1 h2
        have := co_kid (c := c) (lf := lf) hf ha (k := k) (t := t) (u := σ.out a) h1 1 (by rw [ht, ds_cons, hla, bw_true, bw_true]; omega)
        rw [upd_eq] at this
        exact this
      split at h
      · cases h
        refine one _ rfl ?_
        have := bw_le (σ.kid a).ireq 6
        simp only [kp, wD, bw_true]; omega
      · cases h
        split
        · rename_i hi
          refine one _ rfl ?_
          simp [kp, wD, hi]
        · exact same
      · cases h
        refine one _ rfl ?_
        simp [kp, wD, hsd]

/-- the operations of a child concern one that is not a supervisor of the tree -/
def Leaf (lf : Nat → Bool) (σ : State) : Op → Prop
  | .pInit _ | .pStart | .pShut _ => False
  | .kidRecv a _ | .kidInit a _ _ | .kidDown a | .kidShut a => lf a = true ∨ (σ.kid a).born = false
  | _ => True

/-- what a step adds at most -/
def price (σ : State) (op : Op) : Int := if idle σ op then 0 else if user op then 6 else -1

theorem co_out {σ : State} (hf : Fresh σ) {a : Nat} (ha : (σ.kid a).born = true) (hl : lf a = true ∨ (σ.kid a).born = false) (k : Kid) (m : KM) (n : Int)
    (hb : k.born = true) (h : (kp k : Int) + (wK m + 1) ≤ kp (σ.kid a) + n) :
    Co c lf n σ { σ with kid := upd σ.kid a k, out := upd σ.out a (σ.out a ++ [m]) } := by
  have hla : lf a = true := hl.resolve_right (by simp [ha])
  have hlt := fresh_born hf ha
  have e : upd σ.to a (σ.to a) = σ.to := upd_eq _ _
  by_cases hn : 0 ≤ n
  · refine .of (k := n) (l := 0) rfl (fun b => ?_) ?_ (by simp [ss, ws]) (by omega)
    · simp only [upd]; split
      · rename_i e; rw [e, hb, ha]
      · rfl
    · have := ks_at (lf := lf) (σ := σ) (σ' := { σ with kid := upd σ.kid a k, out := upd σ.out a (σ.out a ++ [m]) }) rfl a n.toNat ?_ (fun b hb => ?_)
      · omega
      · simp only [pk, upd, if_true, hla, bw_true, os_snoc]; omega
      · simp [pk, upd, hb]
  · have := co_kid (c := c) (lf := lf) hf hlt (k := k) (t := σ.to a) (u := σ.out a ++ [m]) (by rw [hb, ha]) (-n).toNat
      (by rw [os_snoc, hla, bw_true, bw_true]; omega)
    rw [e] at this
    exact this.le (by omega)

theorem co_step {op : Op} {σ σ' : State} (h : step c σ op = .ok σ') (hf : Fresh σ) (hl : Leaf lf σ op) : Co c lf (price σ op) σ σ' := by
  cases op with
  | create now => simp only [step] at h; cases h; exact (co_addKid hf σ (fun _ _ => Nat.le_refl _) rfl).le (by simp [price, idle, user])
  | spawn cfg => simp only [step] at h; cases h; exact (co_spawn hf).le (by simp [price, idle, user])
  | recv o =>
    simp only [step] at h
    split at h
    · rename_i hq
      cases h
      simp only [price, idle, hq]
      exact .refl σ
    · rename_i m t hq
      have h1 : Co c lf (-(wQ m)) σ { σ with q := t } := co_pop m t hq
      have e : price σ (.recv o) = -1 := by simp [price, idle, user, hq]
      have := wQ_pos m
      rw [e]
      split at h
      · cases h; exact h1.le (by omega)
      · rename_i hs
        have hf1 : Fresh { σ with q := t } := by
          rw [push_eq hq] at hf; exact fresh_pop hf
        exact h1.trans (co_handle h hf1 hs) (by omega)
  | drop =>
    simp only [step] at h
    split at h
    · cases h
      cases hq : σ.q with
      | nil =>
        have e : price σ .drop = 0 := by simp [price, idle, hq]
        rw [e]
        refine .of (k := 0) (l := 0) rfl (fun _ => rfl) (ks_eq rfl) ?_ (by omega)
        simp [hq, ss, ws]
      | cons m t =>
        have e : price σ .drop = -1 := by simp [price, idle, user, hq]
        rw [e]
        have := wQ_pos m
        exact (co_pop m t hq).le (by omega)
    · cases h
  | fired a =>
    simp only [step] at h
    split at h
    · cases h
    · rename_i r hr
      have h1 : ∀ x, Co c lf 0 σ (σ.setRec a { r with info := x }) := fun x => co_setRec 0 (by rw [hr]; simp [rp])
      split at h
      · split at h
        · cases h
          refine (h1 { r.info with timer := false }).trans (l := 6) ?_ (by simp [price, idle, user])
          refine .of (k := 0) (l := 6) rfl (fun _ => rfl) (ks_eq rfl) ?_ (by omega)
          simp only [State.setRec, ss, ws, qs_snoc, wQ, wK]; omega
        · cases h; exact (h1 _).le (by simp [price, idle, user])
      · cases h
  | down => simp only [step] at h; cases h; exact (co_doShutdownSelf σ).le (by simp [price, idle, user])
  | escalate =>
    simp only [step] at h; cases h
    refine .of (k := 0) (l := 3) rfl (fun _ => rfl) (ks_eq rfl) ?_ (by simp [price, idle, user])
    simp only [ss, ws, qs_snoc, wQ]; omega
  | pInit o => exact absurd hl (by simp [Leaf])
  | pStart => exact absurd hl (by simp [Leaf])
  | pShut o => exact absurd hl (by simp [Leaf])
  | contInit o =>
    simp only [step] at h
    split at h
    · exact (co_actorInitContinue h hf).le (by simp [price, idle, user])
    · cases h
  | cont o =>
    simp only [step] at h
    split at h
    · exact (co_shutdownContinue h).le (by simp [price, idle, user])
    · cases h
  | initTmoSelf =>
    simp only [step] at h
    split at h
    · rename_i hi
      cases h
      refine .of (k := 0) (l := -1) rfl (fun _ => rfl) (ks_eq rfl) ?_ (by simp [price, idle, user])
      simp only [ss, ws, qs_snoc, wQ, hi, bw_true, bw_false]; omega
    · cases h
  | finish =>
    simp only [step] at h
    split at h
    · rename_i hc
      cases h
      refine .of (k := 0) (l := -1) rfl (fun _ => rfl) (ks_le rfl (fun b => ?_)) ?_ (by simp [price, idle, user])
      · have : sp .shutDown = 0 := rfl
        simp only [pk, this]; omega
      · simp only [ss, ws, hc.2, se, sd]
        cases c.root <;> simp <;> omega
    · cases h
  | kidRecv a lost =>
    have := co_kidRecv (c := c) (lf := lf) h hf hl
    refine this.le ?_
    simp only [price, idle, user, Bool.false_eq_true, if_false]
    exact Int.le_refl _
  | kidInit a ok keep =>
    simp only [step] at h
    split at h
    · rename_i hk
      cases h
      refine co_out hf hk.1 hl _ _ _ hk.1 ?_
      simp only [price, idle, user, wK]
      cases ok
      · cases keep <;> simp [kp, hk.2.1] <;> omega
      · have := hk.2.2.2 rfl
        simp [kp, hk.2.1, this]; omega
    · cases h
  | kidDown a =>
    simp only [step] at h
    split at h
    · rename_i hk
      cases h
      refine co_out hf hk.1 hl _ _ _ hk.1 ?_
      simp only [price, idle, user, wK]
      simp [kp]
    · cases h
  | kidShut a =>
    simp only [step] at h
    split at h
    · rename_i hk
      cases h
      refine co_out hf hk.1 hl _ _ _ hk.1 ?_
      simp only [price, idle, user, wK]
      simp [kp, hk.1, hk.2]; omega
    · cases h
  | flush a =>
    simp only [step] at h
    split at h
    · rename_i hq
      cases h
      simp only [price, idle, hq]
      exact .refl σ
    · rename_i m t ho
      cases h
      have e : price σ (.flush a) = -1 := by simp [price, idle, user, ho]
      rw [e]
      have h1 := co_kid (c := c) (lf := lf) hf (fresh_out hf ho) (k := σ.kid a) (t := σ.to a) (u := t) rfl (wK m + 1) (by rw [ho, os_cons]; omega)
      rw [upd_eq, upd_eq] at h1
      refine h1.trans (l := wK m) ?_ (by omega)
      refine .of (k := 0) (l := wK m) rfl (fun _ => rfl) (ks_eq rfl) ?_ (by omega)
      simp only [ss, ws, qs_snoc, wQ]; omega
  | initTmo a =>
    simp only [step] at h
    split at h
    · rename_i hi
      cases h
      have hlt : a < σ.nx := by
        refine Nat.lt_of_not_le (fun hx => ?_)
        have := (hf a hx).iA
        simp [view, hi] at this
      refine .of (k := -5) (l := 4) rfl (fun _ => rfl)
        (ks_dec (σ := σ) (σ' := { σ with iA := upd σ.iA a false, q := σ.q ++ [.kid a .initErr] }) rfl 5 hlt ?_ (fun b hb => ?_)) ?_ (by simp [price, idle, user])
      · simp only [pk, upd, if_true, hi, bw_true, bw_false]; omega
      · simp [pk, upd, hb]
      · simp only [ss, ws, qs_snoc, wQ, wK]; omega
    · cases h

/-- a message of the parent adds less than it weighs -/
theorem co_parent {m : Dn} {op : Op} {σ σ' : State} (hm : op = (match m with | .initReq => .pInit o | .start => .pStart | .shutReq => .pShut o))
    (h : step c σ op = .ok σ') (hf : Fresh σ) : Co c lf (wD m - 1) σ σ' := by
  subst hm
  cases m with
  | initReq =>
    simp only [step] at h
    split at h
    · exact co_onInitReq h hf
    · cases h
  | start =>
    simp only [step] at h
    split at h
    · cases h; exact co_onStart σ
    · cases h
  | shutReq =>
    simp only [step] at h
    split at h
    · rename_i hs
      exact (co_startShutdown (fun hx => by rw [hx] at hs; simp [AState.rank] at hs)).trans (co_shutdownContinue h) (by simp [wD])
    · cases h

end Verif.Children
