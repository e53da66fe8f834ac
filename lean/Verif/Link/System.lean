import Verif.Link.Clean
/-!
# All pairs of the system
-/

namespace Verif.Link
open Verif

/-- the plugins behind the link client agree to the shutdown -/
def agreeing : Op → Bool
  | .shutdown _ _ o => o.agree
  | .cont _ o => o.agree
  | .up _ _ o => o.agree
  | .dn _ _ o => o.agree
  | .forget _ _ _ o => o.agree
  | _ => true

/-- the plugins behind the link client agree to the initialization -/
def willing : Op → Bool
  | .init _ _ o => o.next
  | .contInit _ o => o.next
  | .dn _ _ o => o.next
  | _ => true

/-- reachable states -/
inductive Reach (φ : Fl) : State → Prop
  | init : Reach φ State.init
  | step {σ σ' : State} (op : Op) : Reach φ σ → (φ.rl = true → relinkFree σ op) → (φ.nt = true → isTimeout op = false) →
      (φ.nl = true → lateOf op = []) → (φ.ag = true → agreeing op = true) →
      (φ.wi = true → willing op = true) → step σ op = .ok σ' → Reach φ σ'

theorem reach_of_run {ops : List Op} : ∀ {σ σ' : State}, Reach .any σ → run σ ops = .ok σ' → Reach .any σ' := by
  induction ops with
  | nil => intro σ σ' hr h; simp [run] at h; subst h; exact hr
  | cons op ops ih =>
    intro σ σ' hr h
    simp only [run] at h
    split at h
    · simp at h
    · rename_i σ1 h1
      exact ih (.step op hr (by simp [Fl.any]) (by simp [Fl.any]) (by simp [Fl.any]) (by simp [Fl.any]) (by simp [Fl.any]) h1) h

theorem H_init (c s : Nat) : H (view State.init c s) := by
  rw [view_init]
  constructor <;> simp [AState.rank]

theorem M_init (c s : Nat) : M (view State.init c s) := by
  rw [view_init]
  constructor <;> simp [srvRec, absQ, cliLinked, Legal, pendOf]

theorem K_init (c s : Nat) : K (view State.init c s) := by
  rw [view_init]
  constructor <;> simp [PNone]

theorem Q_init (c s : Nat) : Q (view State.init c s) := by
  rw [view_init]
  constructor <;> simp

theorem J_init (c s : Nat) : J (view State.init c s) := by
  rw [view_init]
  constructor <;> simp

theorem reach_J {φ : Fl} {σ : State} (h : Reach φ σ) : ∀ c s, J (view σ c s) := by
  induction h with
  | init => exact J_init
  | step op _ hr ht hn _ _ h ih => exact fun c s => (ih c s).steps (sim_step h ih hr ht hn c s)

theorem reach_HM {φ : Fl} {σ : State} (h : Reach φ σ) (c s : Nat) : H (view σ c s) ∧ M (view σ c s) := by
  induction h with
  | init => exact ⟨H_init c s, M_init c s⟩
  | step op h0 hr ht hn _ _ h ih => exact HM.steps ih (sim_step h (reach_J h0) hr ht hn c s)

/-- invariants of clean executions -/
def Cl (σ : State) : Prop := ∀ c s, H (view σ c s) ∧ M (view σ c s) ∧ K (view σ c s) ∧ Q (view σ c s)

theorem Cl.sim {φ : Fl} (hrl : φ.rl = true) (hnt : φ.nt = true) {σ σ' : State} (h : Cl σ) (s : Sim φ σ σ') : Cl σ' :=
  fun x y => all_steps hrl hnt (h x y) (s x y)

theorem reach_Cl {φ : Fl} (hrl : φ.rl = true) (hnt : φ.nt = true) {σ : State} (h : Reach φ σ) : Cl σ := by
  induction h with
  | init => exact fun c s => ⟨H_init c s, M_init c s, K_init c s, Q_init c s⟩
  | step op h0 hr ht hn _ _ h ih => exact ih.sim hrl hnt (sim_step h (reach_J h0) hr ht hn)

/-! ## no assertion fails in clean executions -/

/-- the link requests of the records are active -/
def NoExp (a : Nat) (σ : State) : Prop := ∀ y rid, (σ.act a).servers.find y = some (.linking rid) → rid ∈ σ.lreq a y

theorem Cl.noExp {σ : State} (h : Cl σ) (a : Nat) : NoExp a σ := by
  intro y rid hf
  rcases (h a y).2.2.1.lr with hk | ⟨r, hk, hk'⟩
  · exact absurd hf (hk.2 rid)
  · have hf' : (view σ a y).r = some (.linking rid) := hf
    rw [hk'] at hf'
    simp at hf'
    subst hf'
    have hk2 : σ.lreq a y = [r] := hk
    simp [hk2]

theorem NoExp.tryForget {a : Nat} {σ : State} (h : NoExp a σ) : NoExp a (tryForget a σ) := by
  unfold Link.tryForget
  split
  · intro y rid hf
    simp only [State.mod, upd, if_pos] at hf
    rw [find_filter_key (fun k => ((σ.act a).unlinkQ.find k).isNone)] at hf
    split at hf
    · exact h y rid hf
    · simp at hf
  · exact h

theorem leaveAll_err {c : Nat} {σ : State} (h : NoExp c σ) {e : Err} (he : leaveAll c σ = .error e) : False := by
  unfold leaveAll at he
  split at he
  · rename_i hx
    rw [List.any_eq_true] at hx
    obtain ⟨p, hp, hx⟩ := hx
    unfold expired at hx
    split at hx
    · rename_i rid hf
      have := h _ _ hf
      simp [this] at hx
    · simp at hx
  · simp at he

theorem clientVote_err {c : Nat} {σ : State} (h : NoExp c σ) {e : Err} (he : clientVote c σ = .error e) : False := by
  unfold clientVote at he
  split at he
  · simp at he
  · simp only at he
    split at he
    · split at he
      · rename_i e' h1
        exact leaveAll_err h.tryForget h1
      · simp at he
    · simp at he

theorem shutdownContinue_err {a : Nat} {o : Ora} {σ : State} (h : NoExp a σ) (hs : (σ.act a).st = .shuttingDown) {e : Err}
    (he : shutdownContinue a o σ = .error e) : False := by
  unfold shutdownContinue at he
  rw [if_pos hs] at he
  split at he
  · split at he
    · split at he
      · rename_i e' h1; exact clientVote_err h h1
      · simp at he
      · simp at he
    · simp at he
  · simp at he

theorem continueIf_err {a : Nat} {o : Ora} {σ : State} (h : NoExp a σ) {e : Err} (he : continueIf a o σ = .error e) : False := by
  unfold continueIf at he
  split at he
  · rename_i hs; exact shutdownContinue_err h hs he
  · simp at he

theorem link_err {c s : Nat} {op : Bool} {σ : State} {e : Err} (he : link c s op σ = .error e) : e = .twice := by
  unfold link at he
  split at he
  · simp at he
  · simp at he; exact he.symm

theorem linkAll_err {c : Nat} {e : Err} : ∀ {l : List (Nat × Bool)} {σ : State}, linkAll c l σ = .error e → e = .twice := by
  intro l
  induction l with
  | nil => intro σ h; simp [linkAll] at h
  | cons p l ih =>
    intro σ h
    obtain ⟨s, op⟩ := p
    simp only [linkAll] at h
    split at h
    · rename_i e' h1
      simp at h; subst h
      exact link_err h1
    · exact ih h

theorem initContinue_err {c : Nat} {o : Ora} {σ : State} {e : Err} (he : initContinue c o σ = .error e) : e = .twice ∨ e = .initCont := by
  unfold initContinue at he
  split at he
  · split at he
    · simp at he
    · split at he
      · rename_i e' h1
        simp at he; subst he
        exact .inl (linkAll_err h1)
      · split at he <;> simp at he
  · simp at he; exact .inr he.symm

theorem forgetLink_err {c s u : Nat} {o : Ora} {σ : State} {e : Err} (h : NoExp c σ) (he : forgetLink c s u o σ = .error e) : False := by
  unfold forgetLink at he
  split at he
  · simp at he
  · simp only at he
    split at he
    · refine continueIf_err (NoExp.tryForget ?_) he
      intro y rid hf
      rw [mod_act_self] at hf
      exact h y rid hf
    · simp at he

/-- in clean executions only two assertions can fail: a second link with the same server, and a confirmed link that continues the
initialization of an actor that is shutting down -/
theorem step_err {σ : State} {op : Op} {e : Err} (h : Cl σ) (ht : isTimeout op = false) (he : step σ op = .error e) :
    e = .illegal ∨ e = .twice ∨ e = .initCont := by
  cases op with
  | init a links o =>
    simp only [step] at he
    split at he
    · split at he
      · rename_i e' h1
        simp at he; subst he
        exact .inr (.inl (linkAll_err h1))
      · exact .inr (initContinue_err he)
    · split at he
      · simp at he
      · simp at he; exact .inl he.symm
  | contInit a o =>
    simp only [step] at he
    split at he
    · exact .inr (initContinue_err he)
    · simp at he; exact .inl he.symm
  | link c s op =>
    simp only [step] at he
    split at he
    · exact .inr (.inl (link_err he))
    · simp at he; exact .inl he.symm
  | start a =>
    simp only [step] at he
    split at he
    · simp at he
    · simp at he; exact .inl he.symm
  | shutdown a req o =>
    simp only [step] at he
    split at he
    · refine absurd he (fun he => shutdownContinue_err ?_ ?_ he)
      · intro y rid hf
        rw [mod_act_self] at hf
        exact h.noExp a y rid hf
      · rw [mod_act_self]
    · simp at he; exact .inl he.symm
  | cont a o =>
    simp only [step] at he
    split at he
    · rename_i hs
      exact absurd he (fun he => shutdownContinue_err (h.noExp a) hs he)
    · simp at he; exact .inl he.symm
  | up c s o =>
    exfalso
    simp only [step, recvUp] at he
    obtain ⟨hh, hm, hk, -⟩ := h c s
    have ne : ∀ f : Actor → Actor, (∀ a, (f a).servers = a.servers) → ∀ (σ' : State), σ'.act = (σ.mod s f).act → σ'.lreq = σ.lreq →
        NoExp s σ' := by
      intro f hf σ' h1 h2 y rid hx
      rw [h1, mod_act_self, hf] at hx
      rw [h2]
      exact h.noExp s y rid hx
    split at he
    · simp at he
    · rename_i m t hup
      split at he
      · split at he <;> simp at he
      · rename_i u
        split at he
        · rename_i hu
          split at he
          · simp at he
          · unfold onUnlinkRes at he
            split at he
            · rename_i hq
              simp only at hq
              rcases hh.ur with hx | ⟨w, hx, hx'⟩
              · have : σ.ureq s c = [] := hx
                rw [this] at hu; simp at hu
              · have : (σ.act s).clients.find c = some (.unlinking w) := hx
                rw [this] at hq; simp at hq
            · refine continueIf_err ?_ he; exact ne (fun a => { a with clients := a.clients.erase c }) (fun _ => rfl) _ rfl rfl
        · simp at he
      · split at he
        · simp at he
        · unfold onNotify at he
          simp only at he
          split at he
          · simp at he
          · rename_i u hq
            split at he
            · refine continueIf_err ?_ he; exact ne (fun a => { a with clients := a.clients.erase c }) (fun _ => rfl) _ rfl rfl
            · rename_i hn
              exact hn (hk.un u hq)
          · refine continueIf_err ?_ he; exact ne (fun a => { a with clients := a.clients.erase c }) (fun _ => rfl) _ rfl rfl
          · refine continueIf_err ?_ he; exact ne (fun a => { a with clients := a.clients.erase c }) (fun _ => rfl) _ rfl rfl
  | dn s c o =>
    simp only [step, recvDn] at he
    obtain ⟨hh, hm, hk, -⟩ := h c s
    split at he
    · simp at he
    · rename_i m t hdn
      split at he
      · rename_i rid ok
        split at he
        · rename_i hr
          split at he
          · simp at he
          · unfold onLinkRes at he
            split at he
            · rename_i hn
              simp only at hn
              exfalso
              rcases hk.lr with hx | ⟨r, hx, hx'⟩
              · have : σ.lreq c s = [] := hx.1
                rw [this] at hr; simp at hr
              · have : (σ.act c).servers.find s = some (.linking r) := hx'
                rw [this] at hn; simp at hn
            · simp only at he
              split at he
              · split at he
                · exact .inr (initContinue_err he)
                · simp at he
              · split at he <;> simp at he
        · simp at he
      · split at he
        · simp at he
        · split at he
          · simp at he
          · refine absurd he (fun he => forgetLink_err ?_ he)
            intro y rid hf
            exact h.noExp c y rid hf
  | forget c s u o =>
    simp only [step] at he
    split at he
    · refine absurd he (fun he => forgetLink_err ?_ he)
      intro y rid hf
      rw [mod_act_self] at hf
      exact h.noExp c y rid hf
    · simp at he; exact .inl he.symm
  | timeoutL c s rid => simp [isTimeout] at ht
  | ltmo c s o =>
    simp only [step, recvLTmo] at he
    have : σ.ltmo c s = [] := (h c s).2.2.1.noT.1
    rw [this] at he
    simp at he
  | timeoutU s c u => simp [isTimeout] at ht
  | utmo s c =>
    simp only [step, recvUTmo] at he
    have : σ.utmo s c = [] := (h c s).2.2.1.noT.2
    rw [this] at he
    simp at he
  | deafC a =>
    simp only [step] at he
    split at he
    · simp at he
    · simp at he; exact .inl he.symm
  | deafS a =>
    simp only [step] at he
    split at he
    · simp at he
    · simp at he; exact .inl he.symm
  | finish a =>
    simp only [step] at he
    split at he
    · simp at he
    · simp at he; exact .inl he.symm

end Verif.Link
