import Verif.Children.Inv
/-!
# A supervisor to which nothing bad happens

Nobody shuts anything down, no initialization fails or takes too long: then no actor is shut down.
-/

namespace Verif.Children
open Verif

/-- an operation that is no cause of a shutdown -/
def Benign : Op → Prop
  | .down | .escalate | .pShut _ | .initTmoSelf | .initTmo _ | .kidDown _ => False
  | .kidInit _ ok _ => ok = true
  | .recv o => o.fac = true
  | _ => True

/-- a message that is no cause of a shutdown -/
def fine : SMsg → Bool
  | .kid _ .create | .kid _ .spawn | .kid _ (.initRes true) | .initReqSelf | .initResSelf true | .startSelf => true
  | _ => false

structure Smooth (σ : State) : Prop where
  wants : σ.wants = 0
  fails : σ.initFails = 0
  st : σ.st.rank ≤ 4
  q : ∀ m ∈ σ.q, fine m = true
  out : ∀ a, ∀ m ∈ σ.out a, m = .initRes true
  to : ∀ a, Dn.shutReq ∉ σ.to a
  kid : ∀ a, (σ.kid a).st.rank ≤ 4

namespace Smooth

variable {c : Conf} {σ σ' : State}

theorem init (c : Conf) : Smooth (.init c) := by
  refine ⟨rfl, rfl, by simp [State.init, AState.rank], ?_, fun a m h => (by simp [State.init] at h), fun a h => (by simp [State.init] at h), fun a => (by simp [State.init, Kid.no, AState.rank])⟩
  intro m hm
  simp only [State.init] at hm
  split at hm <;> simp at hm
  subst hm; rfl

theorem push {σ : State} (h : Smooth σ) {l : List SMsg} (hl : ∀ m ∈ l, fine m = true) : ∀ m ∈ σ.q ++ l, fine m = true := by
  intro m hm
  rcases List.mem_append.mp hm with h1 | h1
  · exact h.q m h1
  · exact hl m h1

theorem addKid (r : Rec) (h : Smooth σ) : Smooth (addKid r σ) := by
  refine ⟨h.wants, h.fails, h.st, h.push (by simp [fine]), h.out, h.to, fun a => ?_⟩
  simp only [Children.addKid, upd]
  split
  · simp [Kid.new, AState.rank]
  · exact h.kid a

theorem createN (now : Int) (n : Nat) : ∀ {σ : State}, Smooth σ → Smooth (createN now n σ) := by
  induction n with
  | zero => exact fun h => h
  | succ n ih => exact fun h => ih (h.addKid _)

theorem initFinish (c : Conf) (h : Smooth σ) : Smooth (initFinish c σ) := by
  refine ⟨h.wants, h.fails, by simp [Children.initFinish, AState.rank], ?_, h.out, h.to, h.kid⟩
  simp only [Children.initFinish]
  split
  · exact h.push (by simp [fine])
  · exact h.q

theorem actorInitContinue {o : Ora} (h : Smooth σ) (he : actorInitContinue c o σ = .ok σ') : Smooth σ' := by
  unfold Children.actorInitContinue at he
  split at he
  · split at he
    · cases he; exact h
    · have h1 : Smooth { σ with rInit := false } := ⟨h.wants, h.fails, h.st, h.q, h.out, h.to, h.kid⟩
      have h2 := h1.createN o.now o.late
      simp only at he
      split at he <;> cases he
      · exact h2.initFinish c
      · exact h2
  · cases he

theorem initContinue {o : Ora} (h : Smooth σ) (he : initContinue c o σ = .ok σ') : Smooth σ' := by
  unfold Children.initContinue at he
  split at he
  · exact actorInitContinue (σ := { σ with rInit := false }) ⟨h.wants, h.fails, h.st, h.q, h.out, h.to, h.kid⟩ he
  · cases he; exact h

theorem onInitReq {o : Ora} (h : Smooth σ) (he : onInitReq c o σ = .ok σ') : Smooth σ' := by
  have h1 : Smooth { σ with initReq := true } := ⟨h.wants, h.fails, h.st, h.q, h.out, h.to, h.kid⟩
  unfold Children.onInitReq at he
  simp only at he
  split at he
  · exact h1.actorInitContinue he
  · cases he; exact h1

theorem onStart (c : Conf) (h : Smooth σ) : Smooth (onStart c σ) := by
  unfold Children.onStart
  split
  · split
    · refine ⟨h.wants, h.fails, by simp [AState.rank], h.q, h.out, fun a => ?_, h.kid⟩
      simp only
      split
      · have := h.to a; simp [this]
      · exact h.to a
    · exact ⟨h.wants, h.fails, by simp [AState.rank], h.q, h.out, h.to, h.kid⟩
  · exact h

theorem pushTo (h : Smooth σ) (a : Nat) {d : Dn} (hd : d ≠ .shutReq) : ∀ b, Dn.shutReq ∉ upd σ.to a (σ.to a ++ [d]) b := by
  intro b
  unfold upd
  split
  · have := h.to a
    simp only [List.mem_append, List.mem_singleton]
    grind
  · exact h.to b

theorem onInitOk {a : Nat} {o : Ora} (h : Smooth σ) (he : onInitOk c a o σ = .ok σ') : Smooth σ' := by
  have key : ∀ {σ1 : State}, Smooth σ1 → (if hasInit σ then Except.ok σ1 else Children.initContinue c o σ1) = .ok σ' → Smooth σ' := by
    intro σ1 h1 he
    split at he
    · cases he; exact h1
    · exact h1.initContinue he
  unfold Children.onInitOk at he
  simp only at he
  cases hr : σ.recs.find a with
  | none => simp only [hr] at he; exact key h he
  | some r =>
    simp only [hr] at he
    by_cases hs : c.sync = true
    · rw [if_pos hs] at he
      exact key (σ1 := σ.setRec a { r with initialized := true }) ⟨h.wants, h.fails, h.st, h.q, h.out, h.to, h.kid⟩ he
    · rw [if_neg hs] at he
      refine key ?_ he
      exact ⟨h.wants, h.fails, h.st, h.q, h.out, h.pushTo a (by simp), h.kid⟩

theorem onSpawn {a : Nat} {o : Ora} (hf : o.fac = true) (h : Smooth σ) (he : onSpawn c a o σ = .ok σ') : Smooth σ' := by
  unfold Children.onSpawn at he
  split at he
  · cases he
  · split at he
    · simp only [hf, if_true] at he
      cases he
      exact addKid (σ := { σ with recs := σ.recs.erase a }) _ ⟨h.wants, h.fails, h.st, h.q, h.out, h.to, h.kid⟩
    · cases he; exact h

theorem handle {m : SMsg} {o : Ora} (hf : o.fac = true) (hm : fine m = true) (h : Smooth σ) (he : handle c m o σ = .ok σ') : Smooth σ' := by
  cases m with
  | trigSelf => simp [fine] at hm
  | initErrSelf => simp [fine] at hm
  | initReqSelf => exact h.onInitReq he
  | startSelf =>
    simp only [Children.handle] at he
    cases he
    exact h.onStart c
  | initResSelf ok =>
    cases ok with
    | false => simp [fine] at hm
    | true =>
      simp only [Children.handle] at he
      split at he
      · have h1 : Smooth { σ with selfIA := false } := ⟨h.wants, h.fails, h.st, h.q, h.out, h.to, h.kid⟩
        unfold Children.onInitResSelf at he
        simp only [if_true] at he
        generalize hx : (if σ.st.rank ≤ AState.operational.rank then { σ with selfIA := false, q := σ.q ++ [.startSelf] } else { σ with selfIA := false }) = σ1 at he
        have h2 : Smooth σ1 := by
          subst hx
          split
          · exact ⟨h.wants, h.fails, h.st, h.push (by simp [fine]), h.out, h.to, h.kid⟩
          · exact h1
        split at he
        · cases he; exact h2
        · exact h2.initContinue he
      · cases he; exact h
  | kid a m =>
    cases m with
    | create =>
      simp only [Children.handle, onKid, onCreate] at he
      split at he
      · cases he
      · cases he
        exact ⟨h.wants, h.fails, h.st, h.q, h.out, h.pushTo a (by simp), h.kid⟩
    | spawn => exact h.onSpawn hf he
    | initRes ok =>
      cases ok with
      | false => simp [fine] at hm
      | true =>
        simp only [Children.handle, onKid] at he
        split at he
        · exact onInitOk (σ := { σ with iA := upd σ.iA a false }) ⟨h.wants, h.fails, h.st, h.q, h.out, h.to, h.kid⟩ he
        · cases he; exact h
    | initErr => simp [fine] at hm
    | trigger => simp [fine] at hm
    | shutRes => simp [fine] at hm
    | unsub => simp [fine] at hm

theorem setKid (h : Smooth σ) (a : Nat) {k : Kid} (hk : k.st.rank ≤ 4) : ∀ b, (upd σ.kid a k b).st.rank ≤ 4 := by
  intro b
  unfold upd
  split
  · exact hk
  · exact h.kid b

theorem step {op : Op} (hb : Benign op) (h : Smooth σ) (he : step c σ op = .ok σ') : Smooth σ' := by
  have h4 := h.st
  cases op with
  | create now => simp only [Children.step] at he; cases he; exact h.addKid _
  | spawn cfg =>
    simp only [Children.step] at he; cases he
    exact ⟨h.wants, h.fails, h.st, h.push (by simp [fine]), h.out, h.to, h.kid⟩
  | recv o =>
    simp only [Children.step] at he
    split at he
    · cases he; exact h
    · rename_i m t hq
      have hq' : ∀ x ∈ m :: t, fine x = true := by rw [← hq]; exact h.q
      have h1 : Smooth { σ with q := t } := ⟨h.wants, h.fails, h.st, fun x hx => hq' x (by simp [hx]), h.out, h.to, h.kid⟩
      split at he
      · cases he; exact h1
      · exact h1.handle hb (hq' m (by simp)) he
  | drop =>
    simp only [Children.step] at he
    split at he <;> cases he
    exact ⟨h.wants, h.fails, h.st, fun x hx => h.q x (List.mem_of_mem_tail hx), h.out, h.to, h.kid⟩
  | fired a =>
    simp only [Children.step] at he
    split at he
    · cases he
    · split at he
      · split at he <;> cases he
        · exact ⟨h.wants, h.fails, h.st, h.push (by simp [fine]), h.out, h.to, h.kid⟩
        · exact ⟨h.wants, h.fails, h.st, h.q, h.out, h.to, h.kid⟩
      · cases he
  | down => exact hb.elim
  | escalate => exact hb.elim
  | pShut o => exact hb.elim
  | initTmoSelf => exact hb.elim
  | initTmo a => exact hb.elim
  | kidDown a => exact hb.elim
  | pInit o =>
    simp only [Children.step] at he
    split at he
    · exact h.onInitReq he
    · cases he
  | pStart =>
    simp only [Children.step] at he
    split at he <;> cases he
    exact h.onStart c
  | contInit o =>
    simp only [Children.step] at he
    split at he
    · exact h.actorInitContinue he
    · cases he
  | cont o =>
    simp only [Children.step] at he
    split at he
    · rename_i hx; rw [hx] at h4; simp [AState.rank] at h4
    · cases he
  | finish =>
    simp only [Children.step] at he
    split at he
    · rename_i hx; rw [hx.2] at h4; simp [AState.rank] at h4
    · cases he
  | kidRecv a lost =>
    simp only [Children.step, kidRecv] at he
    split at he
    · cases he; exact h
    · rename_i m t hq
      have ht : ∀ b, Dn.shutReq ∉ upd σ.to a t b := by
        intro b; unfold upd; split
        · have := h.to a; rw [hq] at this; simp at this; exact this.2
        · exact h.to b
      have h1 : Smooth { σ with to := upd σ.to a t } := ⟨h.wants, h.fails, h.st, h.q, h.out, ht, h.kid⟩
      split at he
      · cases he; exact h1
      · cases m with
        | initReq => cases he; exact ⟨h.wants, h.fails, h.st, h.q, h.out, ht, h.setKid a (h.kid a)⟩
        | start =>
          simp only at he
          split at he <;> cases he
          · exact ⟨h.wants, h.fails, h.st, h.q, h.out, ht, h.setKid a (by simp [AState.rank])⟩
          · exact h1
        | shutReq => have := h.to a; rw [hq] at this; simp at this
  | kidInit a ok keep =>
    have hb : ok = true := hb
    subst hb
    simp only [Children.step] at he
    split at he <;> cases he
    refine ⟨h.wants, h.fails, h.st, h.q, fun b m hm => ?_, h.to, h.setKid a (by simp [AState.rank])⟩
    simp only [upd] at hm
    split at hm
    · simp only [List.mem_append, List.mem_singleton] at hm
      rcases hm with h1 | h1
      · exact h.out a m h1
      · exact h1
    · exact h.out b m hm
  | kidShut a =>
    simp only [Children.step] at he
    split at he
    · rename_i hx; have := h.kid a; rw [hx.2] at this; simp [AState.rank] at this
    · cases he
  | flush a =>
    simp only [Children.step] at he
    split at he
    · cases he; exact h
    · rename_i m t hq
      cases he
      have hq' : ∀ x ∈ m :: t, x = .initRes true := by rw [← hq]; exact h.out a
      have hm := hq' m (by simp)
      subst hm
      refine ⟨h.wants, h.fails, h.st, h.push (by simp [fine]), fun b x hx => ?_, h.to, h.kid⟩
      simp only [upd] at hx
      split at hx
      · exact hq' x (by simp [hx])
      · exact h.out b x hx

end Smooth

end Verif.Children
