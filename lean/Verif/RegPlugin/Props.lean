import Verif.RegPlugin.All
import Verif.RegPlugin.Run
/-!
# C49: names asked for in the initialization
-/

namespace Verif.RegPlugin
open Verif

variable {c : Conf} {σ σ' : State}

/-- C49: an init request that is answered positively, and was not answered negatively before: every name asked for has been registered, every
name looked for has been found and the address has been linked, and every link asked for is established. (Partial: after a negative answer the plugin may
answer positively, `C49_revived_counterexample`.) -/
theorem C49_complete_partial (hg : c.Good) (h : Reach c NoPoke σ) {pre post : List Ev} (hl : σ.log = pre ++ .answer true :: post)
    (hf : Ev.answer false ∉ post) : AllDone c post :=
  (h.inv hg).j.j5.split hl hf

/-- C49: a registration, discovery or link that fails in the initialization fails the initialization -/
theorem C49_fails (hg : c.Good) (h : Reach c NoPoke σ) {op : Op} (hop : (∃ n o, op = .regRes n false o) ∨ (∃ n o, op = .discRes n none o) ∨
    ∃ a o1 o2, op = .linkRes a false o1 o2) (hs : σ.st = .initializing) (hf : Ev.answer false ∉ σ.log) (e : step c σ op = .ok σ') :
    Ev.answer false ∈ σ'.log ∧ σ'.st = .initializing := by
  have hi := h.inv hg
  rcases hop with ⟨n, o, rfl⟩ | ⟨n, o, rfl⟩ | ⟨a, o1, o2, rfl⟩
  · simp only [step, hs] at e
    split at e
    · simp only [reduceCtorEq, if_false] at e
      unfold onRegistration at e
      split at e
      · cases e
      · simp only [or_true, if_true, Bool.false_eq_true, if_false, continueInit] at e
        split at e
        · cases e; exact ⟨by simp [State.ev], rfl⟩
        · cases e
    · cases e
  · simp only [step, hs] at e
    split at e
    · simp only [reduceCtorEq, if_false] at e
      unfold onDiscovery at e
      split at e
      · cases e
      · simp only [postDiscovery] at e
        split at e
        · cases e
        · simp only [or_true, if_true, Bool.false_eq_true, if_false, continueInit, hs] at e
          split at e
          · cases e; exact ⟨by simp [State.ev], rfl⟩
          · cases e
    · cases e
  · simp only [step, hs] at e
    split at e
    · rename_i hq
      simp only [reduceCtorEq, if_false] at e
      obtain ⟨cb, hp⟩ := hi.b.pend a hq
      have hr := (hi.j.i1 hs (hi.b.on hs a cb hp).2.1).resolve_right hf
      simp only [onLinkResponse, hp, Bool.false_eq_true, if_false] at e
      split at e
      · cases e
      · rename_i σ1 h1
        simp only [linkEnd, Bool.false_eq_true, if_false] at e
        cases e
        have h2 : σ1.initReq = true ∧ σ1.st = .initializing := by
          cases cb with
          | user => cases h1; exact ⟨hr, by first | rfl | trivial⟩
          | registry => cases h1; simp only [onLink, Bool.false_eq_true, if_false]; exact ⟨hr, by first | rfl | trivial⟩
          | task n =>
            obtain ⟨t, names, f1, f2, f3, f4⟩ := task_spec h1
            simp only [or_true, if_true, hs, continueInit, Bool.false_eq_true, if_false] at f4
            split at f4
            · cases f4; exact ⟨hr, by first | rfl | trivial⟩
            · rename_i hx; exact absurd hr hx
        simp [h2.1, h2.2]
    · cases e

/-- C49: what a callback is told is true: the first call comes when the address found is in the variable, the second one when the link to this
address has been answered -/
theorem C49_stored (hg : c.Good) (h : Reach c NoPoke σ) {pre post : List Ev} {n : Nat} {ph : Phase} {ok : Bool} {val : Option Nat}
    (hl : σ.log = pre ++ .called n ph ok val :: post) :
    ∃ a, val = some a ∧ Ev.discRes n (some a) ∈ post ∧ (ph = .discovering → ok = true) ∧ (ph = .linking → Ev.linkRes a ok ∈ post) := by
  have := (h.inv hg).e.split hl
  cases ph with
  | discovering => obtain ⟨h1, a, h2, h3⟩ := this; exact ⟨a, h2, h3, fun _ => h1, by simp⟩
  | linking => obtain ⟨a, h2, h3, h4⟩ := this; exact ⟨a, h2, h3, by simp, fun _ => h4⟩

/-- C49: an address found, under any number of names, is linked at most once; and every callback is called at most once in each phase -/
theorem C49_once (hg : c.Good) (h : Reach c NoPoke σ) :
    (∀ a, σ.log.countP (isLinkReq a) ≤ 1) ∧ ∀ n ph, σ.log.countP (isCall n ph) ≤ 1 := by
  have hi := h.inv hg
  refine ⟨fun a => (hi.o.o3 a).1, fun n ph => ?_⟩
  cases ph with
  | discovering => exact (hi.o.o1 n).1
  | linking => exact (hi.o.o2 n).1

/-- the address found is in the user's variable, as long as the name is not reported -/
theorem C49_variable (hg : c.Good) (h : Reach c NoPoke σ) {n a v : Nat} {d b : Bool} (hw : .disc n v d b ∈ c.wants)
    (hf : Ev.discRes n (some a) ∈ σ.log) (ht : ∃ t, σ.disc.find n = some t) : σ.vars v = some a := by
  have hi := h.inv hg
  obtain ⟨t, ht⟩ := ht
  have h1 := hi.k.k0 n t ht
  have h2 := (hg.1 _ _ _ _ _ _ _ _ hw h1 (.inl rfl)).2.1
  rw [h2]
  exact hi.k.k3 n t a ht hf

theorem init_log {o : Ora} (e : initContinue c o σ = .ok σ') : ∀ x, x ∈ σ.log → x ∈ σ'.log := by
  have hr : ∀ τ : State, ∀ x, x ∈ τ.log → x ∈ (pollRest o τ).log := by
    intro τ x hx; unfold pollRest; split
    · simp [initFinish, hx]
    · exact hx
  have hreg : ∀ τ τ' : State, pollRegistry c o τ = .ok τ' → ∀ x, x ∈ τ.log → x ∈ τ'.log := by
    intro τ τ' e x hx
    unfold pollRegistry at e
    split at e
    · split at e
      · cases e
      · rename_i σ1 h1
        have h2 : x ∈ σ1.log := by
          unfold confRegistry at h1
          split at h1
          · cases h1; exact hx
          · obtain ⟨regs', disc', e1, -⟩ := wants_spec h1
            subst e1
            rcases linkedTo_cases c c.wants { τ with confR := true } with ⟨e, -⟩ | ⟨f1, f2, e⟩ <;> rw [e] <;> simp [hx]
        split at e <;> cases e
        · exact hr _ _ h2
        · exact h2
    · cases e; exact hr _ _ hx
  intro x hx
  unfold initContinue at e
  split at e
  · split at e
    · split at e
      · cases e
      · rename_i σ1 h1
        have h2 : x ∈ σ1.log := by
          unfold confClient at h1
          split at h1
          · cases h1; exact hx
          · obtain ⟨srv', b, e1, -⟩ := links_spec h1
            subst e1; simp [hx]
        split at e
        · exact hreg _ _ e x h2
        · cases e; exact h2
    · exact hreg _ _ e x hx
  · cases e

theorem end_log {a : Nat} {ok : Bool} {o : Ora} (e : linkEnd c a ok o σ = .ok σ') : ∀ x, x ∈ σ.log → x ∈ σ'.log := by
  intro x hx
  unfold linkEnd at e
  split at e
  · split at e
    · cases e
    · simp only at e
      split at e
      · exact init_log e x hx
      · cases e; exact hx
  · cases e; split
    · simp [hx]
    · exact hx

/-- C49: the answer to the link to an address found in the initialization reports all the names of this address -/
theorem C49_all_reported (hg : c.Good) (h : Reach c NoPoke σ) {a n v : Nat} {d ok : Bool} {o1 o2 : Ora} (hs : σ.st = .initializing)
    (hw : .disc n v d true ∈ c.wants) (hd : Ev.discRes n (some a) ∈ σ.log) (e : step c σ (.linkRes a ok o1 o2) = .ok σ') :
    Ev.called n .linking ok (some a) ∈ σ'.log := by
  have hi := h.inv hg
  simp only [step, hs] at e
  split at e
  · rename_i hq
    simp only [reduceCtorEq, if_false] at e
    obtain ⟨cb, hp⟩ := hi.b.pend a hq
    obtain ⟨names, ha, hn⟩ := hi.k.k4 n a hs hd
    obtain ⟨m, rfl⟩ := hi.r.r1 a names ha false cb hp
    simp only [onLinkResponse, hp] at e
    split at e
    · cases e
    · rename_i σ1 h1
      refine end_log e _ ?_
      obtain ⟨t, names', f1, f2, f3, f4⟩ := task_spec h1
      have g1 := hi.k.k2 _ _ _ hp
      revert f1 f2 f3 f4
      generalize hτ : (if ok = true then _ else _ : State) = τ
      have ed : τ.disc = σ.disc := by rw [← hτ]; split <;> rfl
      have ea : τ.al = σ.al := by rw [← hτ]; split <;> rfl
      have ev : τ.vars = σ.vars := by rw [← hτ]; split <;> rfl
      have es : τ.st = .initializing := by rw [← hτ]; split <;> rfl
      intro f1 f2 f3 f4
      rw [ed] at f1
      have g2 := hi.k.k3 _ _ _ f1 g1
      rw [ea, ev, g2, ha] at f2
      cases f2
      obtain ⟨t', ht'⟩ := f3 n hn
      rw [ed] at ht'
      have h4 := hi.k.k3 _ _ _ ht' hd
      have h5 := hi.k.k0 _ _ ht'
      have h6 := (hg.1 _ _ _ _ _ _ _ _ hw h5 (.inl rfl)).2.2.2
      have hc : Ev.called n .linking ok (some a) ∈ callEvs τ ok names := by
        rw [mem_callEvs]
        exact ⟨n, t', hn, by rw [ed]; exact ht', h6.symm, by rw [ev, h4]⟩
      rw [if_pos es] at f4
      split at f4
      · unfold continueInit at f4
        split at f4
        · split at f4
          · exact init_log f4 _ (by simp [hc])
          · cases f4; simp [State.ev, hc]
        · cases f4
      · subst f4; simp [hc]
  · cases e

/-- C49: a name that has been registered is given up exactly once by the time the actor is shut down, and no other name is given up -/
theorem C49_dereg (hg : c.Good) (h : Reach c NoPoke σ) (n : Nat) :
    (Ev.dereg n ∈ σ.log → Ev.regRes n true ∈ σ.log) ∧ deregs n σ.log ≤ 1 ∧ (σ.st = .shutDown → Ev.regRes n true ∈ σ.log → deregs n σ.log = 1) := by
  have hi := (h.inv hg).d
  refine ⟨hi.d4 n, hi.d3 n, fun hs hr => ?_⟩
  rcases hi.d2 n hr with ⟨a, h1⟩ | h1
  · rw [hi.d5 (hi.d6 (hi.d10 hs))] at h1; cases h1
  · exact h1

end Verif.RegPlugin
