import Verif.RegPlugin.Progress
/-!
# C49: executions in which no assertion fails and nothing dangles
-/

namespace Verif.RegPlugin
open Verif

variable {c : Conf} {σ σ' : State}

def regName : Want → Option Nat
  | .reg n _ => some n
  | _ => none

def discName : Want → Option Nat
  | .disc n _ _ _ => some n
  | _ => none

/-- what the user asks for makes sense: no name twice, no link twice, and no own link to the registry -/
structure Conf.Fine (c : Conf) : Prop where
  good : c.Good
  regs : (c.wants.filterMap regName).Nodup
  disc : (c.wants.filterMap discName).Nodup
  links : c.links.Nodup
  own : c.reg ∉ c.links

/-- careful executions: the user does not write to the variables, no name is found at an address linked otherwise, nothing is answered after a
failure, and the shutdown begins when nothing is pending -/
def Careful (c : Conf) (σ : State) : Op → Prop
  | .poke _ _ => False
  | .discRes _ (some a) _ => Ev.answer false ∉ σ.log ∧ a ∉ c.links ∧ a ≠ c.reg
  | .discRes _ none _ | .regRes _ _ _ | .linkRes _ _ _ _ => Ev.answer false ∉ σ.log
  | .shut _ => σ.qReg = [] ∧ σ.qDisc = [] ∧ σ.qLink = []
  | _ => True

theorem Careful.noPoke {op : Op} (h : Careful c σ op) : NoPoke σ op := by
  cases op <;> simp_all [Careful, NoPoke]

theorem links_ok {l : List Nat} : ∀ {σ : State}, l.Nodup → (∀ a, a ∈ l → σ.srv.find a = none) → ∃ σ', links l σ = .ok σ' := by
  induction l with
  | nil => intro σ _ _; exact ⟨σ, rfl⟩
  | cons a l ih =>
    intro σ h1 h2
    rw [List.nodup_cons] at h1
    simp only [links, link, h2 a (by simp), ne_eq, not_true_eq_false, if_false]
    refine ih h1.2 (fun b hb => ?_)
    simp only [AMap.find_set]
    rw [if_neg (fun h : b = a => h1.1 (h ▸ hb))]
    exact h2 b (by simp [hb])

theorem need_ok (h1 : σ.linked = false) (h2 : σ.linking = true ∨ σ.srv.find c.reg = none) : ∃ σ', needRegistry c σ = .ok σ' ∧
    σ'.linked = false ∧ σ'.linking = true ∧ σ'.regs = σ.regs ∧ σ'.disc = σ.disc := by
  unfold needRegistry
  simp only [h1, Bool.false_eq_true, if_false]
  split
  · exact ⟨σ, rfl, h1, by assumption, rfl, rfl⟩
  · rename_i h
    have h2 := h2.resolve_left h
    simp only [linkRegistry, link, h2, ne_eq, not_true_eq_false, if_false]
    exact ⟨_, rfl, h1, rfl, rfl, rfl⟩

theorem wants_ok {ws : List Want} : ∀ {σ : State}, (ws.filterMap regName).Nodup → (ws.filterMap discName).Nodup → σ.linked = false →
    σ.linking = true ∨ σ.srv.find c.reg = none → (∀ n, n ∈ ws.filterMap regName → σ.regs.find n = none) →
    (∀ n, n ∈ ws.filterMap discName → σ.disc.find n = none) → ∃ σ', wants c ws σ = .ok σ' := by
  induction ws with
  | nil => intro σ _ _ _ _ _ _; exact ⟨σ, rfl⟩
  | cons w ws ih =>
    intro σ h1 h2 h3 h4 h5 h6
    obtain ⟨τ, e, k1, k2, k3, k4⟩ := need_ok (c := c) h3 h4
    cases w with
    | reg n a =>
      simp only [List.filterMap_cons, regName, discName, List.nodup_cons] at h1 h2 h5 h6
      simp only [wants, want, h5 n (by simp), e, ne_eq, not_true_eq_false, if_false]
      refine ih h1.2 h2 k1 (.inl k2) (fun m hm => ?_) (fun m hm => ?_)
      · simp only [AMap.find_set, k3]
        rw [if_neg (fun h : m = n => h1.1 (h ▸ hm))]
        exact h5 m (by simp [hm])
      · simp only [k4]; exact h6 m hm
    | disc n v d b =>
      simp only [List.filterMap_cons, regName, discName, List.nodup_cons] at h1 h2 h5 h6
      simp only [wants, want, h6 n (by simp), e, ne_eq, not_true_eq_false, if_false]
      refine ih h1 h2.2 k1 (.inl k2) (fun m hm => ?_) (fun m hm => ?_)
      · simp only [k3]; exact h5 m hm
      · simp only [AMap.find_set, k4]
        rw [if_neg (fun h : m = n => h2.1 (h ▸ hm))]
        exact h6 m (by simp [hm])

/-- a poll of the plugins succeeds -/
theorem init_ok (hc : c.Fine) (hi : Inv c σ) (hw : W c σ) (hs : σ.st = .initializing) (hq : σ.initReq = true) (o : Ora) :
    ∃ σ', initContinue c o σ = .ok σ' := by
  have reg_ok : ∀ τ : State, (τ.confR = false → τ.linked = false ∧ τ.srv.find c.reg = none ∧ τ.regs = [] ∧ τ.disc = []) →
      ∃ σ', pollRegistry c o τ = .ok σ' := by
    intro τ h
    unfold pollRegistry
    split
    · unfold confRegistry
      cases e : τ.confR with
      | true => simp only [if_true]; split <;> exact ⟨_, rfl⟩
      | false =>
        obtain ⟨h1, h2, h3, h4⟩ := h e
        obtain ⟨τ', e'⟩ := wants_ok (c := c) (σ := { τ with confR := true }) hc.regs hc.disc h1 (.inr h2) (by simp [h3]) (by simp [h4])
        simp only [Bool.false_eq_true, if_false, e']; split <;> exact ⟨_, rfl⟩
    · exact ⟨_, rfl⟩
  have hr : ∀ τ : State, τ.confR = σ.confR → τ.linked = σ.linked → (∀ a r, τ.srv.find a = some r → σ.srv.find a = some r ∨ a ∈ c.links) → τ.regs = σ.regs →
      τ.disc = σ.disc → ∃ σ', pollRegistry c o τ = .ok σ' := by
    intro τ e1 e2 e3 e4 e5
    refine reg_ok τ (fun h => ?_)
    rw [e1] at h
    obtain ⟨g1, g2, g3, g4, -⟩ := hi.k.q0 h
    refine ⟨e2.trans g4, ?_, e4.trans g2, e5.trans g1⟩
    cases e : τ.srv.find c.reg with
    | none => rfl
    | some r =>
      rcases e3 _ _ e with h' | h'
      · exact absurd (hw.w8 h _ _ h') hc.own
      · exact absurd h' hc.own
  unfold initContinue
  rw [if_pos ⟨hs, hq⟩]
  split
  · unfold confClient
    cases e : σ.confL with
    | true =>
      simp only [if_true]
      split
      · exact hr _ rfl rfl (fun _ _ h => .inl h) rfl rfl
      · exact ⟨_, rfl⟩
    | false =>
      obtain ⟨τ, e'⟩ := links_ok (σ := { σ with confL := true }) hc.links (by simp [hw.w9 e])
      simp only [Bool.false_eq_true, if_false, e']
      obtain ⟨srv', b, e1, e2, e3, e4, e5, e6⟩ := links_spec e'
      subst e1
      split
      · refine hr _ rfl rfl (fun a r h => ?_) rfl rfl
        simp only [e4] at h
        split at h
        · exact .inr (by assumption)
        · exact .inl h
      · exact ⟨_, rfl⟩
  · exact hr _ rfl rfl (fun _ _ h => .inl h) rfl rfl

theorem callAll_ok {ok : Bool} {names : List Nat} : ∀ {σ : State}, (∀ n, n ∈ names → ∃ t, σ.disc.find n = some t) → ∃ σ', callAll ok names σ = .ok σ' := by
  induction names with
  | nil => intro σ _; exact ⟨σ, rfl⟩
  | cons n ns ih =>
    intro σ h
    obtain ⟨t, ht⟩ := h n (by simp)
    simp only [callAll, ht]
    refine ih (fun m hm => ?_)
    have : (if t.cb then σ.ev (.called n .linking ok (σ.vars t.v)) else σ).disc = σ.disc := by split <;> rfl
    rw [this]
    exact h m (by simp [hm])

theorem M.rank (m : M c σ σ') (h : 2 ≤ σ.st.rank) : 2 ≤ σ'.st.rank := by
  cases m
  case finI => simp [initFinish, AState.rank]
  case shut => simp [AState.rank]
  case finish => simp [AState.rank]
  case start => simp [AState.rank]
  case confL hc hs hi e => rw [(links_fields e).1, hs]; simp [AState.rank]
  case confR hc hs hi hl e => rw [(wants_fields e).1, hs]; simp [AState.rank]
  all_goals exact h

theorem Reach.rank (hg : c.Good) (h : Reach c NoPoke σ) : 2 ≤ σ.st.rank := by
  induction h with
  | init => simp [State.init, AState.rank]
  | @step σ σ' op hr hp e ih =>
    have m := sim_step (hr.inv hg).b (op := op) (by cases op <;> first | rfl | exact absurd hp (by simp [NoPoke])) e
    clear e
    induction m with
    | refl => exact ih
    | tail m1 m2 ih2 => exact m2.rank ih2

/-- in the initialization only the shutdown request leads to SHUTTING_DOWN -/
theorem init_st {o : Ora} (e : initContinue c o σ = .ok σ') : σ'.st ≠ .shuttingDown := by
  have hr : ∀ τ : State, τ.st = .initializing → (pollRest o τ).st ≠ .shuttingDown := by
    intro τ h; unfold pollRest; split
    · simp [initFinish]
    · simp [h]
  have hreg : ∀ τ : State, τ.st = .initializing → pollRegistry c o τ = .ok σ' → σ'.st ≠ .shuttingDown := by
    intro τ h e
    unfold pollRegistry at e
    split at e
    · split at e
      · cases e
      · rename_i σ1 h1
        have h2 : σ1.st = .initializing := by
          unfold confRegistry at h1
          split at h1
          · cases h1; exact h
          · exact (wants_fields h1).1.trans h
        split at e <;> cases e
        · exact hr _ h2
        · simp [h2]
    · cases e; exact hr _ h
  unfold initContinue at e
  split at e
  · rename_i hx
    split at e
    · split at e
      · cases e
      · rename_i σ1 h1
        have h2 : σ1.st = .initializing := by
          unfold confClient at h1
          split at h1
          · cases h1; exact hx.1
          · exact (links_fields h1).1.trans hx.1
        split at e
        · exact hreg { σ1 with rInitL := false } h2 e
        · cases e; simp [h2]
    · exact hreg _ hx.1 e
  · cases e

theorem cont_st {ok : Bool} {o : Ora} (hs : σ.st = .initializing) (e : continueInit c ok o σ = .ok σ') : σ'.st ≠ .shuttingDown := by
  unfold continueInit at e
  split at e
  · split at e
    · exact init_st e
    · cases e; simp [State.ev, hs]
  · cases e

theorem post_st {n : Nat} {ok : Bool} {o : Ora} (hs : σ.st = .initializing) (e : postDiscovery c n ok o σ = .ok σ') : σ'.st ≠ .shuttingDown := by
  unfold postDiscovery at e
  split at e
  · cases e
  · simp only [hs, if_true] at e
    split at e
    · exact cont_st rfl e
    · cases e; simp

theorem down_st {op : Op} (hs : σ.st = .initializing) (e : step c σ op = .ok σ') (ho : ∀ o, op ≠ .shut o) : σ'.st ≠ .shuttingDown := by
  cases op with
  | init o =>
    simp only [step, hs, if_true] at e
    split at e
    · exact init_st e
    · cases e
  | contInit o =>
    simp only [step] at e
    split at e
    · exact init_st e
    · cases e
  | contShut o => simp [step, hs] at e
  | shut o => exact absurd rfl (ho o)
  | finish => simp [step, hs] at e
  | start => simp [step, hs] at e
  | forget a =>
    simp only [step] at e
    split at e
    · split at e <;> cases e
      simp [hs]
    · cases e
  | poke v x => cases e; simp [hs]
  | regRes n ok o =>
    simp only [step, hs, reduceCtorEq, if_false] at e
    split at e
    · unfold onRegistration at e
      split at e
      · cases e
      · dsimp only at e
        cases ok <;> simp only [Bool.false_eq_true, if_true, if_false] at e <;> split at e
        · exact cont_st rfl e
        · cases e; simp
        · exact cont_st rfl e
        · cases e; simp
    · cases e
  | discRes n res o =>
    simp only [step, hs, reduceCtorEq, if_false] at e
    split at e
    · unfold onDiscovery at e
      split at e
      · cases e
      · rename_i t ht
        cases res with
        | none => exact post_st rfl e
        | some a =>
          have hst : (store n t a { σ with st := .initializing, qDisc := rm σ.qDisc n, log := .discRes n (some a) :: σ.log }).st = .initializing := by
            unfold store; simp only; split <;> rfl
          simp only [hst, if_true] at e
          unfold linkTask at e
          split at e
          · cases e; simp [hst]
          · split at e
            · cases e
            · rename_i τ h
              unfold link at h
              split at h
              · cases h
              · cases h; cases e; simp [hst]
    · cases e
  | linkRes a ok o1 o2 =>
    simp only [step, hs, reduceCtorEq, if_false] at e
    split at e
    · unfold onLinkResponse at e
      split at e
      · cases e
      · rename_i r hr
        split at e
        · cases e
        · rename_i σ1 h1
          have h2 : σ1.st ≠ .shuttingDown := by
            unfold runCb at h1
            split at h1
            · cases h1; split <;> simp
            · cases h1; cases ok <;> simp [onLink]
            · unfold onTaskLink at h1
              split at h1
              · cases h1
              · split at h1
                · cases h1
                · split at h1
                  · cases h1
                  · rename_i τ hc
                    obtain ⟨f1, -⟩ := callAll_spec hc
                    subst f1
                    refine post_st ?_ h1
                    simp only
                    split <;> rfl
          unfold linkEnd at e
          split at e
          · split at e
            · cases e
            · simp only at e
              split at e
              · exact init_st e
              · cases e; exact h2
          · cases e; split <;> exact h2
    · cases e

/-- a shutdown that began with nothing pending -/
theorem quiet (hg : c.Good) (h : Reach c (Careful c) σ) (hs : σ.st = .shuttingDown) : σ.qReg = [] ∧ σ.qDisc = [] ∧ σ.qLink = [] := by
  have hd : ∀ {o : Ora} {τ τ' : State}, shutdownContinue o τ = .ok τ' → τ.qReg = [] ∧ τ.qDisc = [] ∧ τ.qLink = [] →
      τ'.qReg = [] ∧ τ'.qDisc = [] ∧ τ'.qLink = [] := by
    intro o τ τ' e h
    have hc : ∀ υ : State, υ.qReg = [] ∧ υ.qDisc = [] ∧ υ.qLink = [] →
        (pollClientDown o υ).qReg = [] ∧ (pollClientDown o υ).qDisc = [] ∧ (pollClientDown o υ).qLink = [] := by
      intro υ h
      unfold pollClientDown shutClient
      split
      · split
        · rename_i hx
          split at hx
          · cases hx; exact h
          · split at hx <;> cases hx
            exact ⟨h.1, h.2.1, rfl⟩
        · rename_i hx
          split at hx
          · cases hx
          · split at hx <;> cases hx
            exact h
      · exact h
    unfold shutdownContinue at e
    split at e
    · split at e
      · split at e
        · unfold shutRegistry at e
          split at e
          · rename_i hx
            split at hx <;> cases hx
            cases e
            exact hc _ h
          · rename_i hx
            split at hx <;> cases hx
            cases e
            exact h
        · cases e; exact hc _ h
      · cases e; exact h
    · cases e
  induction h with
  | init => cases hs
  | @step σ σ' op hr hp e ih =>
    by_cases h1 : σ.st = .initializing
    · cases op with
      | shut o =>
        simp only [step] at e
        split at e
        · exact hd e hp
        · cases e
      | _ => exact absurd hs (down_st h1 e (by simp))
    · have hw : σ.st = .initialized ∨ σ.st = .operational → σ.qReg = [] ∧ σ.qDisc = [] ∧ σ.qLink = [] :=
        ((hr.mono (fun _ _ h => h.noPoke)).w hg).1.w5
      have hq : σ.st ≠ .shutDown → σ.qReg = [] ∧ σ.qDisc = [] ∧ σ.qLink = [] := by
        intro h2
        cases h3 : σ.st with
        | initializing => exact absurd h3 h1
        | initialized => exact hw (.inl h3)
        | operational => exact hw (.inr h3)
        | shuttingDown => exact ih h3
        | shutDown => exact absurd h3 h2
        | unknown => have := (hr.mono (fun _ _ h => h.noPoke)).rank hg; rw [h3] at this; simp [AState.rank] at this
        | new => have := (hr.mono (fun _ _ h => h.noPoke)).rank hg; rw [h3] at this; simp [AState.rank] at this
      cases op with
      | init o =>
        simp only [step, h1, if_false] at e
        split at e
        · cases e; exact ih hs
        · cases e
      | contInit o => simp [step, h1] at e
      | contShut o =>
        simp only [step] at e
        split at e
        · exact hd e (ih (by assumption))
        · cases e
      | shut o =>
        simp only [step] at e
        split at e
        · exact hd e hp
        · cases e
      | finish =>
        simp only [step] at e
        split at e <;> cases e
        cases hs
      | start =>
        simp only [step] at e
        split at e <;> cases e
        cases hs
      | forget a =>
        simp only [step] at e
        split at e
        · split at e <;> cases e
          exact ih hs
        · cases e
      | poke v x => exact hp.elim
      | regRes n ok o =>
        by_cases h2 : σ.st = .shutDown
        · simp only [step, h2, if_true] at e
          split at e <;> cases e
          simp only [h2] at hs; cases hs
        · simp [step, (hq h2).1] at e
      | discRes n res o =>
        by_cases h2 : σ.st = .shutDown
        · simp only [step, h2, if_true] at e
          split at e <;> cases e
          simp only [h2] at hs; cases hs
        · simp [step, (hq h2).2.1] at e
      | linkRes a ok o1 o2 =>
        by_cases h2 : σ.st = .shutDown
        · simp only [step, h2, if_true] at e
          split at e <;> cases e
          simp only [h2] at hs; cases hs
        · simp [step, (hq h2).2.2] at e

/-- C49: in a careful execution no assertion fails, nothing is thrown, and nothing that is gone is used. (Partial: see the counterexamples for what
happens without care.) -/
theorem C49_safe_partial (hc : c.Fine) (h : Reach c (Careful c) σ) {op : Op} (hp : Careful c σ op) {e : Err} (he : step c σ op = .error e) :
    e = .illegal := by
  have hn : Reach c NoPoke σ := h.mono (fun _ _ h => h.noPoke)
  have hi := hn.inv hc.good
  obtain ⟨hw, hown⟩ := hn.w hc.good
  have hrk := hn.rank hc.good
  have hq : σ.st ≠ .shutDown → σ.st ≠ .initializing → σ.qReg = [] ∧ σ.qDisc = [] ∧ σ.qLink = [] := by
    intro h2 h1
    cases h3 : σ.st with
    | initializing => exact absurd h3 h1
    | initialized => exact hw.w5 (.inl h3)
    | operational => exact hw.w5 (.inr h3)
    | shuttingDown => exact quiet hc.good h h3
    | shutDown => exact absurd h3 h2
    | unknown => rw [h3] at hrk; simp [AState.rank] at hrk
    | new => rw [h3] at hrk; simp [AState.rank] at hrk
  have hdown : ∀ {o : Ora} {τ : State}, τ.st = .shuttingDown → shutdownContinue o τ ≠ .error e := by
    intro o τ hs h
    unfold shutdownContinue at h
    rw [if_pos hs] at h
    split at h
    · split at h
      · split at h <;> cases h
      · cases h
    · cases h
  have hpoll : ∀ {o : Ora} {τ : State}, M c σ τ → τ.st = .initializing → τ.initReq = true → initContinue c o τ ≠ .error e := by
    intro o τ m h1 h2 h3
    obtain ⟨σ', h4⟩ := init_ok hc (hi.step hc.good m) (hw.step hc.good hi m) h1 h2 o
    rw [h4] at h3; cases h3
  have hreq : σ.st = .initializing → Ev.answer false ∉ σ.log → σ.confL = true → σ.initReq = true := fun h1 h2 h3 => (hi.j.i1 h1 h3).resolve_right h2
  cases op with
  | init o =>
    simp only [step] at he
    split at he
    · rename_i hx
      split at he
      · exact absurd he (hpoll (M.recvInit (c := c) σ hx.1 hx.2) (by assumption) rfl)
      · cases he
    · cases he; rfl
  | contInit o =>
    simp only [step] at he
    split at he
    · rename_i hx
      obtain ⟨σ', h4⟩ := init_ok hc hi hw hx.1 hx.2 o
      rw [h4] at he; cases he
    · cases he; rfl
  | contShut o =>
    simp only [step] at he
    split at he
    · exact absurd he (hdown (by assumption))
    · cases he; rfl
  | shut o =>
    simp only [step] at he
    split at he
    · exact absurd he (hdown rfl)
    · cases he; rfl
  | finish =>
    simp only [step] at he
    split at he <;> cases he
    rfl
  | start =>
    simp only [step] at he
    split at he <;> cases he
    rfl
  | forget a =>
    simp only [step] at he
    split at he
    · split at he <;> cases he
      rfl
    · cases he; rfl
  | poke v x => exact hp.elim
  | regRes n ok o =>
    simp only [step] at he
    split at he
    · rename_i hm
      split at he
      · cases he
      · rename_i hsd
        have hs : σ.st = .initializing := by
          refine Classical.byContradiction (fun h1 => ?_)
          rw [(hq hsd h1).1] at hm; cases hm
        have hcR : σ.confR = true := by
          cases e : σ.confR with
          | true => rfl
          | false => rw [(hi.k.q0 e).2.2.2.2.2.1] at hm; cases hm
        have hir := hreq hs hp (hi.b.cr hcR)
        obtain ⟨a, hr⟩ := hw.w3 hs n hm
        unfold onRegistration at he
        simp only [hr] at he
        cases ok with
        | false =>
          simp only [Bool.false_eq_true, if_false, or_true, if_true, continueInit, hir] at he
          cases he
        | true =>
          simp only [if_true, continueInit, if_pos hir] at he
          split at he
          · exact absurd he (hpoll (M.regOk (c := c) σ n ⟨a, .registering⟩ hm hr) hs hir)
          · cases he
    · cases he; rfl
  | discRes n res o =>
    simp only [step] at he
    split at he
    · rename_i hm
      split at he
      · cases he
      · rename_i hsd
        have hs : σ.st = .initializing := by
          refine Classical.byContradiction (fun h1 => ?_)
          rw [(hq hsd h1).2.1] at hm; cases hm
        obtain ⟨t, ht⟩ := hw.w4 hs n hm
        have hcR := hi.b.dc n t ht
        cases res with
        | none =>
          have hir := hreq hs hp (hi.b.cr hcR)
          simp only [onDiscovery, ht, postDiscovery, or_true, if_true, hs, continueInit, hir, Bool.false_eq_true, if_false] at he
          cases he
        | some a =>
          obtain ⟨hf, hl, hreg⟩ := hp
          simp only [onDiscovery, ht] at he
          have hst : (store n t a { σ with qDisc := rm σ.qDisc n, log := .discRes n (some a) :: σ.log }).st = .initializing := by
            unfold store; simp only; split <;> exact hs
          have hsr : (store n t a { σ with qDisc := rm σ.qDisc n, log := .discRes n (some a) :: σ.log }).srv = σ.srv := by
            unfold store; simp only; split <;> rfl
          have hal : (store n t a { σ with qDisc := rm σ.qDisc n, log := .discRes n (some a) :: σ.log }).al = σ.al := by
            unfold store; simp only; split <;> rfl
          have hva : (store n t a { σ with qDisc := rm σ.qDisc n, log := .discRes n (some a) :: σ.log }).vars t.v = some a := by
            unfold store; simp only; split <;> simp [State.ev]
          rw [if_pos hst] at he
          unfold linkTask at he
          rw [hal, hva] at he
          cases e1 : σ.al.find (some a) with
          | some names => rw [e1] at he; cases he
          | none =>
            have hno : σ.srv.find a = none := by
              cases e2 : σ.srv.find a with
              | none => rfl
              | some r =>
                obtain ⟨b, cb⟩ := r
                exfalso
                cases cb with
                | user => exact hl (hown a b e2)
                | registry => exact hreg (hi.k.ra a b e2)
                | task m =>
                  obtain ⟨names, h1, -⟩ := hi.k.k4 m a hs (hi.k.k2 a b m e2)
                  rw [e1] at h1; cases h1
            rw [e1] at he
            simp only [link, hsr, hno, ne_eq, not_true_eq_false, if_false] at he
            cases he
    · cases he; rfl
  | linkRes a ok o1 o2 =>
    simp only [step] at he
    split at he
    · rename_i hm
      split at he
      · cases he
      · rename_i hsd
        have hs : σ.st = .initializing := by
          refine Classical.byContradiction (fun h1 => ?_)
          rw [(hq hsd h1).2.2] at hm; cases hm
        obtain ⟨cb, hr⟩ := hi.b.pend a hm
        obtain ⟨g1, g2, -⟩ := hi.b.on hs a cb hr
        have hir := hreq hs hp g2
        simp only [onLinkResponse, hr] at he
        cases ok with
        | false =>
          simp only [Bool.false_eq_true, if_false] at he
          cases cb with
          | user => simp only [runCb, linkEnd, Bool.false_eq_true, if_false] at he; cases he
          | registry => simp only [runCb, linkEnd, Bool.false_eq_true, if_false] at he; cases he
          | task n =>
            have hd := hi.k.k2 _ _ _ hr
            obtain ⟨names, ha, hnm⟩ := hi.k.k4 n a hs hd
            have hall := hw.w7 hs a names hm ha
            obtain ⟨t, ht⟩ := hall n hnm
            have hv := hi.k.k3 n t a ht hd
            obtain ⟨τ, hτ⟩ := callAll_ok (ok := false) (names := names)
              (σ := { σ with srv := σ.srv.erase a, qLink := rm σ.qLink a, log := .linkRes a false :: σ.log }) hall
            obtain ⟨f1, -⟩ := callAll_spec hτ
            have hτd : τ.disc.find n = some t := by rw [f1]; exact ht
            have hst : τ.st = .initializing := by rw [f1]; exact hs
            have hir1 : τ.initReq = true := by rw [f1]; exact hir
            simp only [runCb, onTaskLink, ht, hv, ha, hτ, postDiscovery, or_true, if_true, hτd, if_pos hst, continueInit, if_pos hir1, Bool.false_eq_true, if_false, linkEnd] at he
            cases he
        | true =>
          simp only [if_true] at he
          cases cb with
          | user =>
            simp only [runCb, linkEnd, if_true, hr, if_pos hir] at he
            exact absurd he (hpoll (M.linkUser (c := c) σ a ⟨false, .user⟩ hm hr rfl) hs hir)
          | registry =>
            have hr' : (onLink true { σ with qLink := rm σ.qLink a, log := .linkRes a true :: σ.log }).srv.find a = some ⟨false, .registry⟩ := hr
            have hir' : (onLink true { σ with qLink := rm σ.qLink a, log := .linkRes a true :: σ.log }).initReq = true := hir
            simp only [runCb, linkEnd, if_true, hr', if_pos hir'] at he
            exact absurd he (hpoll (M.linkReg (c := c) σ a ⟨false, .registry⟩ hm hr rfl) hs hir)
          | task n =>
            have hd := hi.k.k2 _ _ _ hr
            obtain ⟨names, ha, hnm⟩ := hi.k.k4 n a hs hd
            have hall := hw.w7 hs a names hm ha
            obtain ⟨t, ht⟩ := hall n hnm
            have hv := hi.k.k3 n t a ht hd
            obtain ⟨τ, hτ⟩ := callAll_ok (ok := true) (names := names) (σ := { σ with qLink := rm σ.qLink a, log := .linkRes a true :: σ.log }) hall
            obtain ⟨f1, -⟩ := callAll_spec hτ
            have hm' := M.linkTask (c := c) σ a n ⟨false, .task n⟩ t names hm hr rfl ht (by rw [hv]; exact ha) hall hs
            have hx : eraseNames n t τ = eraseNames n t σ := by rw [f1]; exact eraseNames_congr rfl rfl rfl
            have hτd : τ.disc.find n = some t := by rw [f1]; exact ht
            have hpost : postDiscovery c n true o1 τ =
                .ok { σ with qLink := rm σ.qLink a, log := callEvs σ true names ++ .linkRes a true :: σ.log, disc := eraseNames n t σ } := by
              have hst : τ.st = .initializing := by rw [f1]; exact hs
              have hir1 : τ.initReq = true := by rw [f1]; exact hir
              simp only [postDiscovery, hτd, hx, if_pos hst, if_true, continueInit, if_pos hir1]
              split
              · rw [init_stays (a := a) (cb := .task n) (σ := { τ with disc := eraseNames n t σ }) hst hir1 (by rw [f1]; exact g1)
                  (by rw [f1]; exact g2) (by rw [f1]; exact hr)]
                rw [f1]; rfl
              · rw [f1]; rfl
            simp only [runCb, onTaskLink, ht, hv, ha, hτ, hpost, linkEnd, if_true, hr, if_pos hir] at he
            exact absurd he (hpoll hm' hs hir)
    · cases he; rfl

end Verif.RegPlugin
