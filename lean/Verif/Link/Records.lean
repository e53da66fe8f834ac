import Verif.Link.Props
/-!
# What the two sides have on record (C40, C42, C43)
-/

namespace Verif.Link
open Verif

/-- The records are what the history says: the client has a confirmed link with the server in its list exactly if it was confirmed last
and it has not left or unlinked since; the server keeps a request, or has a client, exactly if it has queued it, or answered it, and has
not let it go since. -/
theorem C43_records {φ : Fl} {σ : State} (h : Reach φ σ) (c s : Nat) :
    (cliLinked (σ.hist c s) = true ↔ (σ.act c).servers.find s = some .operational) ∧
    (srvRec (σ.hist c s) = none ↔ (σ.act s).clients.find c = none) ∧
    (∀ rid, srvRec (σ.hist c s) = some (some rid) ↔ ∃ op, (σ.act s).clients.find c = some (.pending rid op)) ∧
    (srvRec (σ.hist c s) = some none ↔ (σ.act s).clients.find c = some .operational ∨ ∃ u, (σ.act s).clients.find c = some (.unlinking u)) := by
  obtain ⟨-, hm⟩ := reach_HM h c s
  exact ⟨cliLinked_iff hm, srvRec_none hm, fun rid => srvRec_pending hm, srvRec_linked hm⟩

/-- The server waits for the answer to an unlink request, so that its timer may expire, only as long as it has the client on record
and has neither got the answer nor been told that the client has left; it waits for one answer at most. -/
theorem C43_awaited {φ : Fl} {σ : State} (h : Reach φ σ) (c s u : Nat) (hu : u ∈ σ.ureq s c) :
    (σ.act s).clients.find c = some (.unlinking u) ∧ σ.ureq s c = [u] ∧ srvRec (σ.hist c s) = some none := by
  obtain ⟨hh, hm⟩ := reach_HM h c s
  rcases hh.ur with e | ⟨u', e1, e2⟩
  · rw [show σ.ureq s c = [] from e] at hu; simp at hu
  · rw [show σ.ureq s c = [u'] from e2] at hu
    simp at hu; subst hu
    exact ⟨e1, e2, (srvRec_linked hm).2 (.inr ⟨u, e1⟩)⟩

theorem notify_st (s : Nat) (σ : State) (b : Nat) : ((notifyShutdown s σ).act b).st = (σ.act b).st := by
  by_cases e : b = s <;> simp [notifyShutdown, State.mod, upd, e]
theorem tryForget_st (s : Nat) (σ : State) (b : Nat) : ((tryForget s σ).act b).st = (σ.act b).st := by
  unfold tryForget; split
  · by_cases e : b = s <;> simp [State.mod, upd, e]
  · rfl
theorem serverVote_st (s : Nat) (σ : State) (b : Nat) : ((serverVote s σ).act b).st = (σ.act b).st := by
  unfold serverVote; split
  · rfl
  · simp only []
    split
    · have := notify_st s σ b
      by_cases e : b = s
      · subst e; simpa [State.mod, upd] using this
      · simpa [State.mod, upd, e] using this
    · exact notify_st s σ b

theorem clientVote_st {c : Nat} {σ : State} {r : State × Bool} (h : clientVote c σ = .ok r) (b : Nat) : (r.1.act b).st = (σ.act b).st := by
  unfold clientVote at h
  split at h
  · injection h with h; subst h; rfl
  · simp only [] at h
    split at h
    · split at h
      · simp at h
      · rename_i σ2 e
        injection h with h; subst h
        unfold leaveAll at e
        split at e
        · simp at e
        · injection e with e; subst e
          have := tryForget_st c σ b
          by_cases e : b = c
          · subst e; simpa [State.mod, upd] using this
          · simpa [State.mod, upd, e] using this
    · injection h with h; subst h
      simp only []
      rw [notify_st, tryForget_st]

theorem clientVote_discard {c : Nat} {σ : State} {e : Err} (h : clientVote c σ = .error e) : e = .discard := by
  unfold clientVote at h
  split at h
  · simp at h
  · simp only [] at h
    split at h
    · split at h
      · rename_i e' he
        injection h with h; subst h
        unfold leaveAll at he
        split at he
        · injection he with he; exact he.symm
        · simp at he
      · simp at h
    · simp at h

theorem shutdownContinue_ok {a : Nat} {o : Ora} {σ : State} (hs : (σ.act a).st = .shuttingDown) :
    (∃ σ', shutdownContinue a o σ = .ok σ' ∧ (σ'.act a).st = .shuttingDown) ∨ shutdownContinue a o σ = .error .discard := by
  unfold shutdownContinue
  rw [if_pos hs]
  by_cases ha : o.agree = true
  · rw [if_pos ha]
    by_cases hc : (σ.act a).rClient = true
    · rw [if_pos hc]
      cases hv : clientVote a σ with
      | error e => right; rw [clientVote_discard hv]
      | ok r =>
        have hst := clientVote_st hv a
        obtain ⟨σ1, b⟩ := r
        left
        cases b with
        | true => exact ⟨_, rfl, by rw [serverVote_st]; simpa [State.mod, upd] using hst.trans hs⟩
        | false => exact ⟨_, rfl, hst.trans hs⟩
    · rw [if_neg hc]; exact .inl ⟨_, rfl, by rw [serverVote_st, hs]⟩
  · rw [if_neg ha]; exact .inl ⟨_, rfl, hs⟩

/-- A shutdown request is obeyed at once, if no timer has expired: no assertion fails, and the actor is shutting down. -/
theorem C40_begins {φ : Fl} (hrl : φ.rl = true) (hnt : φ.nt = true) {σ : State} (h : Reach φ σ) (a : Nat) (req : Bool) (o : Ora)
    (h5 : (σ.act a).st.rank < AState.shuttingDown.rank) :
    ∃ σ', step σ (.shutdown a req o) = .ok σ' ∧ (σ'.act a).st = .shuttingDown := by
  have hn := (C41_assertions_hold hrl hnt h (.shutdown a req o) rfl).2.1
  simp only [step] at hn ⊢
  rw [if_pos h5] at hn ⊢
  rcases shutdownContinue_ok (a := a) (o := o) (σ := σ.mod a (fun a => { a with st := .shuttingDown, shutReq := req })) (by simp [State.mod, upd]) with h | h
  · exact h
  · exact absurd h hn

theorem link_same {c s : Nat} {op : Bool} {σ σ' : State} (h : link c s op σ = .ok σ') :
    (σ'.act c).st = (σ.act c).st ∧ (σ'.act c).initReq = (σ.act c).initReq := by
  unfold link at h
  split at h
  · injection h with h; subst h; constructor <;> simp [State.mod, upd]
  · simp at h

theorem link_twice {c s : Nat} {op : Bool} {σ : State} {e : Err} (h : link c s op σ = .error e) : e = .twice := by
  unfold link at h
  split at h
  · simp at h
  · injection h with h; exact h.symm

theorem linkAll_same {c : Nat} : ∀ (l : List (Nat × Bool)) (σ σ' : State), linkAll c l σ = .ok σ' →
    (σ'.act c).st = (σ.act c).st ∧ (σ'.act c).initReq = (σ.act c).initReq
  | [], σ, σ', h => by simp [linkAll] at h; subst h; exact ⟨rfl, rfl⟩
  | (s, op) :: l, σ, σ', h => by
    simp only [linkAll] at h
    split at h
    · simp at h
    · rename_i σ1 e
      have h1 := link_same e
      have h2 := linkAll_same l _ _ h
      exact ⟨h2.1.trans h1.1, h2.2.trans h1.2⟩

theorem linkAll_twice {c : Nat} : ∀ (l : List (Nat × Bool)) (σ : State) (e : Err), linkAll c l σ = .error e → e = .twice
  | [], σ, e, h => by simp [linkAll] at h
  | (s, op) :: l, σ, e, h => by
    simp only [linkAll] at h
    split at h
    · rename_i e' he
      injection h with h; subst h
      exact link_twice he
    · rename_i σ1 _
      exact linkAll_twice l _ _ h

theorem initContinue_ok {c : Nat} {o : Ora} {σ : State} (hs : (σ.act c).st = .initializing) (hr : (σ.act c).initReq = true) :
    (∃ σ', initContinue c o σ = .ok σ') ∨ initContinue c o σ = .error .twice := by
  unfold initContinue
  rw [if_pos ⟨hs, hr⟩]
  split
  · exact .inl ⟨_, rfl⟩
  · cases e : linkAll c o.late (σ.mod c (fun a => { a with rInit := false })) with
    | error e' => right; rw [linkAll_twice _ _ _ e]
    | ok σ2 =>
      left
      cases o.next
      · exact ⟨_, rfl⟩
      · exact ⟨_, rfl⟩

/-- An init request is accepted: the only assertion that can fail then is that an actor must not link itself with a server twice. -/
theorem C42_begins {σ : State} (a : Nat) (links : List (Nat × Bool)) (o : Ora) (hs : (σ.act a).st = .initializing) (ha : (σ.act a).asked = false) :
    (∃ σ', step σ (.init a links o) = .ok σ') ∨ step σ (.init a links o) = .error .twice := by
  simp only [step]
  rw [if_pos ⟨hs, ha⟩]
  cases e : linkAll a links (σ.mod a (fun a => { a with initReq := true, asked := true })) with
  | error e' => right; rw [linkAll_twice _ _ _ e]
  | ok σ1 =>
    have := linkAll_same _ _ _ e
    exact initContinue_ok (this.1.trans (by simp [State.mod, upd, hs])) (this.2.trans (by simp [State.mod, upd]))

/-- So are the links that are asked for later, one for each server. -/
theorem C42_asks {σ : State} (c s : Nat) (op : Bool) (hs : (σ.act c).st = .initialized ∨ (σ.act c).st = .operational) (hn : (σ.act c).servers.find s = none) :
    ∃ σ', step σ (.link c s op) = .ok σ' ∧ σ'.up c s = σ.up c s ++ [.linkReq σ.nx op] ∧ σ'.hist c s = .asked σ.nx (σ.act c).st :: σ.hist c s := by
  simp only [step]
  rw [if_pos (.inr hs)]
  unfold link
  rw [if_pos hn]
  exact ⟨_, rfl, by simp [upd2], by simp [upd2]⟩

end Verif.Link
