import Verif.Link.System
/-!
# An actor that is shutting down waits for clients only

If the other plugins agree, an actor whose links are not closed has clients, and all of them have been asked to unlink.
-/

namespace Verif.Link
open Verif

def Wait (x : Actor) : Prop :=
  x.st = .shuttingDown → x.closed = false → x.clients ≠ [] ∧ ∀ c, x.clients.find c ≠ some .operational

theorem wait_notify {s : Nat} {σ : State} (h : ((notifyShutdown s σ).act s).clients ≠ []) : Wait ((notifyShutdown s σ).act s) := by
  intro _ _
  refine ⟨h, fun c => ?_⟩
  obtain ⟨e, -⟩ := notifyShutdown_act s σ
  rw [e]
  show AMap.find ((σ.act s).clients.map (fun p => (p.1, unl σ.nx p.2))) c ≠ _
  rw [find_map_val (unl σ.nx) c (σ.act s).clients]
  cases (σ.act s).clients.find c with
  | none => simp
  | some p => cases p <;> simp [unl]

theorem serverVote_act (s : Nat) (σ : State) : Wait ((serverVote s σ).act s) ∧ ∀ x, x ≠ s → (serverVote s σ).act x = σ.act x := by
  unfold serverVote
  split
  · rename_i hc
    exact ⟨fun _ h => by rw [hc] at h; simp at h, fun _ _ => rfl⟩
  · obtain ⟨e, f⟩ := notifyShutdown_act s σ
    simp only
    split
    · refine ⟨fun _ h => ?_, fun x hx => ?_⟩
      · rw [mod_act_self] at h; simp at h
      · simp only [mod_act, hx, if_false]; exact f x hx
    · rename_i hc
      exact ⟨wait_notify hc, f⟩

theorem clientVote_false {c : Nat} {σ σ' : State} (h : clientVote c σ = .ok (σ', false)) : Wait (σ'.act c) := by
  unfold clientVote at h
  split at h
  · simp at h
  · simp only at h
    split at h
    · split at h <;> simp at h
    · rename_i hc
      simp at h
      obtain ⟨rfl, -⟩ := h
      refine wait_notify ?_
      obtain ⟨e, -⟩ := notifyShutdown_act c (tryForget c σ)
      rw [e]
      simpa using hc

theorem wait_shutdownContinue {a : Nat} {o : Ora} {σ σ' : State} (h : shutdownContinue a o σ = .ok σ') :
    (o.agree = true → Wait (σ'.act a)) ∧ ∀ x, x ≠ a → σ'.act x = σ.act x := by
  unfold shutdownContinue at h
  split at h
  case isFalse => simp at h
  case isTrue hs =>
    split at h
    · split at h
      · split at h
        · simp at h
        · rename_i σ1 h1
          injection h with h; subst h
          obtain ⟨-, -, f⟩ := clientVote_act h1
          refine ⟨fun _ => (serverVote_act a _).1, fun x hx => ?_⟩
          rw [(serverVote_act a _).2 x hx]
          simp only [mod_act, hx, if_false]
          exact f x hx
        · rename_i σ1 h1
          injection h with h; subst h
          obtain ⟨-, -, f⟩ := clientVote_act h1
          exact ⟨fun _ => clientVote_false h1, f⟩
      · injection h with h; subst h
        exact ⟨fun _ => (serverVote_act a _).1, (serverVote_act a _).2⟩
    · rename_i hg
      injection h with h; subst h
      exact ⟨fun h => absurd h hg, fun _ _ => rfl⟩

theorem wait_continueIf {a : Nat} {o : Ora} {σ σ' : State} (h : continueIf a o σ = .ok σ') (hg : o.agree = true) :
    Wait (σ'.act a) ∧ ∀ x, x ≠ a → σ'.act x = σ.act x := by
  unfold continueIf at h
  split at h
  · exact ⟨(wait_shutdownContinue h).1 hg, (wait_shutdownContinue h).2⟩
  · rename_i hs
    injection h with h; subst h
    exact ⟨fun h => absurd h hs, fun _ _ => rfl⟩

/-- the same as far as waiting goes -/
theorem Wait.same {x y : Actor} (h : Wait x) (h1 : y.st = x.st) (h2 : y.closed = x.closed) (h3 : y.clients = x.clients) : Wait y := by
  unfold Wait at *
  rw [h1, h2, h3]
  exact h

theorem Wait.of_st {x : Actor} (h : x.st ≠ .shuttingDown) : Wait x := fun h' => absurd h' h

def AllWait (σ : State) : Prop := ∀ x, Wait (σ.act x)

theorem AllWait.mod {σ : State} (h : AllWait σ) {a : Nat} {f : Actor → Actor}
    (hf : Wait (σ.act a) → Wait (f (σ.act a))) : AllWait (σ.mod a f) := by
  intro x
  rw [mod_act]
  split
  · exact hf (h a)
  · exact h x

theorem AllWait.of_act {σ σ' : State} (h : AllWait σ) (e : ∀ x, Wait (σ.act x) → Wait (σ'.act x)) : AllWait σ' := fun x => e x (h x)

theorem AllWait.linkAll {c : Nat} {l : List (Nat × Bool)} {σ σ' : State} (h : AllWait σ) (hl : linkAll c l σ = .ok σ') : AllWait σ' := by
  obtain ⟨⟨sv, ri, e⟩, f⟩ := linkAll_act hl
  intro x
  by_cases hx : x = c
  · subst hx; rw [e]; exact (h x).same rfl rfl rfl
  · rw [f x hx]; exact h x

theorem AllWait.link {c s : Nat} {op : Bool} {σ σ' : State} (h : AllWait σ) (hl : link c s op σ = .ok σ') : AllWait σ' := by
  obtain ⟨⟨sv, ri, e⟩, f⟩ := link_act hl
  intro x
  by_cases hx : x = c
  · subst hx; rw [e]; exact (h x).same rfl rfl rfl
  · rw [f x hx]; exact h x

theorem AllWait.initContinue {c : Nat} {o : Ora} {σ σ' : State} (h : AllWait σ) (hi : initContinue c o σ = .ok σ') : AllWait σ' := by
  unfold Link.initContinue at hi
  split at hi
  · split at hi
    · injection hi with hi; subst hi; exact h
    · split at hi
      · simp at hi
      · rename_i σ2 h2
        have h3 : AllWait σ2 := (h.mod (fun hw => hw.same rfl rfl rfl)).linkAll h2
        split at hi
        · injection hi with hi; subst hi
          exact h3.mod (fun _ => .of_st (by simp))
        · injection hi with hi; subst hi; exact h3
  · simp at hi

theorem AllWait.tryForget {c : Nat} {σ : State} (h : AllWait σ) : AllWait (tryForget c σ) := by
  obtain ⟨⟨sv, e⟩, f⟩ := tryForget_act c σ
  intro x
  by_cases hx : x = c
  · subst hx; rw [e]; exact (h x).same rfl rfl rfl
  · rw [f x hx]; exact h x

theorem AllWait.continueIf {a : Nat} {o : Ora} {σ σ' : State} (h : ∀ x, x ≠ a → Wait (σ.act x)) (hc : continueIf a o σ = .ok σ')
    (hg : o.agree = true) : AllWait σ' := by
  obtain ⟨h1, h2⟩ := wait_continueIf hc hg
  intro x
  by_cases hx : x = a
  · subst hx; exact h1
  · rw [h2 x hx]; exact h x hx

theorem AllWait.forgetLink {c s u : Nat} {o : Ora} {σ σ' : State} (h : AllWait σ) (hf : forgetLink c s u o σ = .ok σ')
    (hg : o.agree = true) : AllWait σ' := by
  unfold Link.forgetLink at hf
  split at hf
  · injection hf with hf; subst hf; exact h
  · have h1 : AllWait (Link.tryForget c (σ.mod c (fun a => { a with unlinkQ := a.unlinkQ ++ [(s, u)] }))) :=
      (h.mod (fun hw => hw.same rfl rfl rfl)).tryForget
    simp only at hf
    split at hf
    · exact AllWait.continueIf (fun x _ => h1 x) hf hg
    · injection hf with hf; subst hf; exact h1

theorem AllWait.onLinkRes {c s rid : Nat} {ok : Bool} {o : Ora} {σ σ' : State} (h : AllWait σ) (hf : onLinkRes c s rid ok o σ = .ok σ') :
    AllWait σ' := by
  unfold Link.onLinkRes at hf
  split at hf
  · simp at hf
  · simp only at hf
    have h0 : AllWait { σ with hist := upd2 σ.hist c s (.known rid ok :: σ.hist c s) } := h
    split at hf
    · split at hf
      · exact (h0.mod (fun hw => hw.same rfl rfl rfl)).initContinue hf
      · injection hf with hf; subst hf
        exact h0.mod (fun hw => hw.same rfl rfl rfl)
    · split at hf
      · injection hf with hf; subst hf
        exact (h0.mod (fun hw => hw.same rfl rfl rfl)).mod (fun hw => hw.same rfl rfl rfl)
      · injection hf with hf; subst hf
        exact h0.mod (fun hw => hw.same rfl rfl rfl)

theorem AllWait.step {σ σ' : State} {op : Op} (h : AllWait σ) (hs : step σ op = .ok σ') (hg : agreeing op = true) : AllWait σ' := by
  have other : ∀ (s : Nat) (f : Actor → Actor), ∀ x, x ≠ s → Wait ((σ.mod s f).act x) := by
    intro s f x hx
    simp only [mod_act, hx, if_false]
    exact h x
  cases op with
  | init a links o =>
    simp only [Link.step] at hs
    split at hs
    · split at hs
      · simp at hs
      · rename_i σ1 h1
        exact ((h.mod (fun hw => hw.same rfl rfl rfl)).linkAll h1).initContinue hs
    · split at hs
      · injection hs with hs; subst hs
        exact h.mod (fun hw => hw.same rfl rfl rfl)
      · simp at hs
  | contInit a o =>
    simp only [Link.step] at hs
    split at hs
    · exact h.initContinue hs
    · simp at hs
  | link c s op =>
    simp only [Link.step] at hs
    split at hs
    · exact h.link hs
    · simp at hs
  | start a =>
    simp only [Link.step] at hs
    split at hs
    · injection hs with hs; subst hs
      intro x
      simp only [onStart, mod_act]
      split
      · exact .of_st (by simp)
      · exact h x
    · simp at hs
  | shutdown a req o =>
    simp only [Link.step] at hs
    split at hs
    · obtain ⟨h1, h2⟩ := wait_shutdownContinue hs
      intro x
      by_cases hx : x = a
      · subst hx; exact h1 hg
      · rw [h2 x hx]; exact other a _ x hx
    · simp at hs
  | cont a o =>
    simp only [Link.step] at hs
    split at hs
    · obtain ⟨h1, h2⟩ := wait_shutdownContinue hs
      intro x
      by_cases hx : x = a
      · subst hx; exact h1 hg
      · rw [h2 x hx]; exact h x
    · simp at hs
  | up c s o =>
    simp only [Link.step, recvUp] at hs
    split at hs
    · injection hs with hs; subst hs; exact h
    · rename_i m t hup
      split at hs
      · split at hs
        · injection hs with hs; subst hs; exact h
        · injection hs with hs; subst hs
          unfold onLinkReq
          simp only
          split
          · exact h
          · rename_i hr
            have hr' : (σ.act s).st ≠ .shuttingDown := by
              intro e; simp [e, AState.rank] at hr
            split
            · intro x
              simp only [mod_act]
              split
              · exact .of_st hr'
              · exact h x
            · intro x
              simp only [mod_act]
              split
              · exact .of_st hr'
              · exact h x
      · split at hs
        · split at hs
          · injection hs with hs; subst hs; exact h
          · unfold onUnlinkRes at hs
            split at hs
            · simp at hs
            · refine AllWait.continueIf (a := s) (fun x hx => ?_) hs hg; exact other s (fun a => { a with clients := a.clients.erase c }) x hx
        · injection hs with hs; subst hs; exact h
      · split at hs
        · injection hs with hs; subst hs; exact h
        · unfold onNotify at hs
          simp only at hs
          split at hs
          · injection hs with hs; subst hs; exact h
          · split at hs
            · refine AllWait.continueIf (a := s) (fun x hx => ?_) hs hg; exact other s (fun a => { a with clients := a.clients.erase c }) x hx
            · simp at hs
          · refine AllWait.continueIf (a := s) (fun x hx => ?_) hs hg; exact other s (fun a => { a with clients := a.clients.erase c }) x hx
          · refine AllWait.continueIf (a := s) (fun x hx => ?_) hs hg; exact other s (fun a => { a with clients := a.clients.erase c }) x hx
  | dn s c o =>
    simp only [Link.step, recvDn] at hs
    split at hs
    · injection hs with hs; subst hs; exact h
    · rename_i m t hdn
      split at hs
      · split at hs
        · split at hs
          · injection hs with hs; subst hs; exact h
          · refine AllWait.onLinkRes ?_ hs
            exact h
        · injection hs with hs; subst hs; exact h
      · split at hs
        · injection hs with hs; subst hs; exact h
        · split at hs
          · injection hs with hs; subst hs
            exact AllWait.mod (σ := { σ with dn := upd2 σ.dn s c t }) h (fun hw => hw.same rfl rfl rfl)
          · refine AllWait.forgetLink ?_ hs hg
            exact h
  | forget c s u o =>
    simp only [Link.step] at hs
    split at hs
    · exact (h.mod (fun hw => hw.same rfl rfl rfl)).forgetLink hs hg
    · simp at hs
  | timeoutL c s rid =>
    simp only [Link.step] at hs
    split at hs
    · injection hs with hs; subst hs; exact h
    · simp at hs
  | ltmo c s o =>
    simp only [Link.step, recvLTmo] at hs
    split at hs
    · injection hs with hs; subst hs; exact h
    · split at hs
      · injection hs with hs; subst hs; exact h
      · refine AllWait.onLinkRes ?_ hs
        exact h
  | timeoutU s c u =>
    simp only [Link.step] at hs
    split at hs
    · injection hs with hs; subst hs; exact h
    · simp at hs
  | utmo s c =>
    simp only [Link.step, recvUTmo] at hs
    split at hs
    · injection hs with hs; subst hs; exact h
    · rename_i u t hu
      split at hs
      · injection hs with hs; subst hs; exact h
      · split at hs
        · injection hs with hs; subst hs
          exact AllWait.mod (σ := { σ with utmo := upd2 σ.utmo s c t }) h (fun hw => hw.same rfl rfl rfl)
        · simp at hs
  | deafC a =>
    simp only [Link.step] at hs
    split at hs
    · injection hs with hs; subst hs
      exact h.mod (fun hw => hw.same rfl rfl rfl)
    · simp at hs
  | deafS a =>
    simp only [Link.step] at hs
    split at hs
    · injection hs with hs; subst hs
      exact h.mod (fun hw => hw.same rfl rfl rfl)
    · simp at hs
  | finish a =>
    simp only [Link.step] at hs
    split at hs
    · injection hs with hs; subst hs
      intro x
      simp only [mod_act]
      split
      · exact .of_st (by simp)
      · exact h x
    · simp at hs

theorem reach_wait {φ : Fl} (hag : φ.ag = true) {σ : State} (h : Reach φ σ) : AllWait σ := by
  induction h with
  | init => exact fun x => .of_st (by simp [State.init, Actor.init])
  | step op _ _ _ _ hg _ h ih => exact ih.step h (hg hag)

end Verif.Link
