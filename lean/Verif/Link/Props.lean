import Verif.Link.InitInv
import Verif.Link.InitWait
/-!
# Properties of links (C40–C43)

`run State.init ops = .ok σ` ranges over all executions; `Reach φ σ` over those that satisfy the restrictions `φ`. What happened
between a client and a server is read off their history (`Verif.Link.Spec`).
-/

namespace Verif.Link
open Verif

/-- no message is in transit -/
def Quiet (σ : State) : Prop := ∀ c s, σ.up c s = [] ∧ σ.dn s c = []

/-! ## from views to histories -/

theorem srvRec_none {v : View} (hm : M v) : srvRec v.hist = none ↔ v.q = none := by
  rw [hm.srv]
  cases h : v.q with
  | none => simp [absQ]
  | some p => cases p <;> simp [absQ]

theorem srvRec_linked {v : View} (hm : M v) : srvRec v.hist = some none ↔ linkedQ v.q := by
  rw [hm.srv]
  cases h : v.q with
  | none => simp [absQ, linkedQ]
  | some p => cases p <;> simp [absQ, linkedQ]

theorem srvRec_pending {v : View} (hm : M v) {rid : Nat} : srvRec v.hist = some (some rid) ↔ ∃ op, v.q = some (.pending rid op) := by
  rw [hm.srv]
  cases h : v.q with
  | none => simp [absQ]
  | some p => cases p <;> simp [absQ]

theorem cliLinked_iff {v : View} (hm : M v) : cliLinked v.hist = true ↔ v.r = some .operational := by
  rw [hm.cli]; simp

/-! ## C40 -/

/-- A server whose links are closed, and all the more one that is shut down, has no record of any client, and no client considers
itself linked with it. -/
theorem C40_server_outlives_clients {ops : List Op} {σ : State} (h : run State.init ops = .ok σ) (s c : Nat)
    (hs : (σ.act s).closed = true ∨ (σ.act s).st = .shutDown) :
    srvRec (σ.hist c s) = none ∧ cliLinked (σ.hist c s) = false := by
  obtain ⟨hh, hm⟩ := reach_HM (reach_of_run .init h) c s
  have hc : (view σ c s).sClosed = true := by
    rcases hs with h | h
    · exact h
    · exact hh.down h
  have hq := (hh.sclosed hc).1
  refine ⟨(srvRec_none hm).2 hq, ?_⟩
  cases hr : cliLinked (σ.hist c s) with
  | false => rfl
  | true =>
    have hr' := (cliLinked_iff hm).1 hr
    rcases (hh.rop hr').1 with h | ⟨u, h⟩
    · rw [hq] at h; simp at h
    · rw [hq] at h; simp at h

/-- The links are closed at most once the actor is shutting down, and an actor is shut down only if its links are closed. -/
theorem C40_closed_before_shut_down {ops : List Op} {σ : State} (h : run State.init ops = .ok σ) (a : Nat) :
    ((σ.act a).closed = true → 5 ≤ (σ.act a).st.rank) ∧ ((σ.act a).st = .shutDown → (σ.act a).closed = true) := by
  obtain ⟨hh, -⟩ := reach_HM (reach_of_run .init h) a a
  exact ⟨fun h => (hh.sclosed h).2, fun h => hh.down h⟩

/-- If no timer expires, the other plugins agree to the shutdown, and no message is in transit, then a set of actors that are shutting
down has closed its links, provided their clients are in the set too and do not depend on each other in a circle. -/
theorem C40_shutdown_completes {φ : Fl} (hrl : φ.rl = true) (hnt : φ.nt = true) (hag : φ.ag = true) {σ : State} (h : Reach φ σ)
    (hq : Quiet σ) (D : Nat → Prop) (f : Nat → Nat) (hd : ∀ s, D s → 5 ≤ (σ.act s).st.rank)
    (hc : ∀ s c, D s → srvRec (σ.hist c s) ≠ none → D c ∧ f c < f s) : ∀ s, D s → (σ.act s).closed = true := by
  have key : ∀ n s, f s < n → D s → (σ.act s).closed = true := by
    intro n
    induction n with
    | zero => intro s hn; exact absurd hn (Nat.not_lt_zero _)
    | succ n ih =>
      intro s hn hs
      cases hcl : (σ.act s).closed with
      | true => rfl
      | false =>
        exfalso
        have hst : (σ.act s).st = .shuttingDown := by
          have h5 := hd s hs
          have hdn := (reach_HM h s s).1.down
          cases e : (σ.act s).st with
          | shuttingDown => rfl
          | shutDown =>
            have : (view σ s s).sClosed = true := hdn e
            have this : (σ.act s).closed = true := this
            rw [hcl] at this; simp at this
          | _ => rw [e] at h5; simp [AState.rank] at h5
        obtain ⟨hne, -⟩ := reach_wait hag h s hst hcl
        obtain ⟨c, hcf⟩ : ∃ c, (σ.act s).clients.find c ≠ none := by
          refine Classical.byContradiction (fun hx => hne (AMap.eq_nil_of_find _ (fun k => ?_)))
          refine Classical.byContradiction (fun hk => hx ⟨k, hk⟩)
        obtain ⟨hh, hm, hk, -⟩ := reach_Cl hrl hnt h c s
        have hrec : srvRec (σ.hist c s) ≠ none := fun e => hcf ((srvRec_none hm).1 e)
        obtain ⟨hdc, hlt⟩ := hc s c hs hrec
        have hcc : (view σ c s).cClosed = true := ih c (by omega) hdc
        have hr := (hh.left (hh.cclosed hcc)).1
        have hup : (view σ c s).up = [] := (hq c s).1
        rcases hk.pnone hr with h | ⟨u, h, -⟩ | ⟨-, h⟩ | ⟨rid, op, -, h, -⟩
        · exact hcf h.2
        · rw [hup] at h; simp at h
        · rw [hup] at h; simp at h
        · rw [hup] at h; simp at h
  exact fun s hs => key (f s + 1) s (Nat.lt_succ_self _) hs

/-! ## C41 -/

/-- Every link request is in exactly one place: on its way, kept by a server that is not operational, answered, or gone because the
client left or the server was closed. It is answered at most once and the client learns of at most one answer. -/
theorem C41_answered_at_most_once {ops : List Op} {σ : State} (h : run State.init ops = .ok σ) (c s rid : Nat) :
    (σ.hist c s).countP (isAsk rid) ≤ 1 ∧
    (σ.hist c s).countP (isAns rid) + (σ.hist c s).countP (isGone rid) + (σ.up c s).countP (isReq rid) +
      (if srvRec (σ.hist c s) = some (some rid) then 1 else 0) = (σ.hist c s).countP (isAsk rid) ∧
    (σ.hist c s).countP (isKnown rid) ≤ (σ.hist c s).countP (isAsk rid) ∧
    (srvRec (σ.hist c s) = some (some rid) → (σ.act s).st ≠ .operational ∧ (σ.act s).st ≠ .shutDown) := by
  obtain ⟨hh, hm⟩ := reach_HM (reach_of_run .init h) c s
  have h1 := hm.one rid
  have h2 := hm.cons rid
  have h3 := hm.kn rid
  refine ⟨?_, ?_, ?_, ?_⟩
  · have : (view σ c s).hist = σ.hist c s := rfl
    rw [this] at h1
    split at h1 <;> omega
  · have e : pendOf rid (view σ c s).q = if srvRec (σ.hist c s) = some (some rid) then 1 else 0 := by
      have := hm.srv
      have hx : (view σ c s).hist = σ.hist c s := rfl
      rw [hx] at this
      rw [this]
      cases (view σ c s).q with
      | none => simp [pendOf, absQ]
      | some p => cases p <;> simp [pendOf, absQ]
    rw [← e]
    have hx : (view σ c s).hist = σ.hist c s := rfl
    have hy : (view σ c s).up = σ.up c s := rfl
    rw [hx, hy] at h2
    omega
  · have hx : (view σ c s).hist = σ.hist c s := rfl
    rw [hx] at h3
    omega
  · intro hp
    obtain ⟨op, hq⟩ := (srvRec_pending hm).1 hp
    refine ⟨hh.pend rid op hq, fun e => ?_⟩
    have := (hh.sclosed (hh.down e)).1
    rw [hq] at this; simp at this

/-- The events between any client and any server obey the rules (`Rule`). In particular a link is confirmed only by a server
that is not shutting down (if asked for, by one that is operational) and has no link with the client, it is refused only by one that is shutting down or has a link or a request of
the client already, and the client considers itself linked only after a confirmation. -/
theorem C41_rules {ops : List Op} {σ : State} (h : run State.init ops = .ok σ) (c s : Nat) : Legal (σ.hist c s) :=
  (reach_HM (reach_of_run .init h) c s).2.legal

/-- what a server does with a link request -/
inductive Served where
  | confirmed
  | kept
  | refused
deriving DecidableEq

/-- `st`: state of the server, `known`: it has a record of the client, `op`: the operational state is asked for -/
def serve (st : AState) (known op : Bool) : Served :=
  if 4 < st.rank ∨ known = true then .refused else if op = true ∧ st.rank < 4 then .kept else .confirmed

/-- A link request that arrives is served at once: confirmed, kept or refused, as the state of the server demands. -/
theorem C41_served_at_once (σ : State) (c s rid : Nat) (op : Bool) (t : List Up) (o : Ora) (hu : σ.up c s = .linkReq rid op :: t)
    (hd : (σ.act s).deafS = false) : ∃ σ', step σ (.up c s o) = .ok σ' ∧ σ'.up c s = t ∧
      match serve (σ.act s).st ((σ.act s).clients.find c).isSome op with
      | .confirmed => σ'.dn s c = σ.dn s c ++ [Dn.linkRes rid true] ∧ σ'.hist c s = .answered rid true op (σ.act s).st :: σ.hist c s
      | .kept => σ'.dn s c = σ.dn s c ∧ σ'.hist c s = .queued rid :: σ.hist c s
      | .refused => σ'.dn s c = σ.dn s c ++ [Dn.linkRes rid false] ∧ σ'.hist c s = .answered rid false op (σ.act s).st :: σ.hist c s := by
  refine ⟨onLinkReq s c rid op { σ with up := upd2 σ.up c s t }, ?_, ?_, ?_⟩
  · simp [step, recvUp, hu, hd]
  · unfold onLinkReq
    simp only
    split
    · simp [upd2]
    · split <;> simp [upd2, State.mod]
  · unfold onLinkReq serve
    have e : (4 < (σ.act s).st.rank ∨ ((σ.act s).clients.find c).isSome = true) ↔
        (AState.operational.rank < (σ.act s).st.rank ∨ (σ.act s).clients.find c ≠ none) := by
      have : AState.operational.rank = 4 := rfl
      rw [this]
      cases (σ.act s).clients.find c <;> simp
    have e2 : AState.operational.rank = 4 := rfl
    by_cases h1 : AState.operational.rank < (σ.act s).st.rank ∨ (σ.act s).clients.find c ≠ none
    · rw [if_pos (e.2 h1)]
      simp only
      rw [if_pos h1]
      simp [upd2]
    · rw [if_neg (fun h => h1 (e.1 h))]
      simp only
      rw [if_neg h1]
      by_cases h2 : op = true ∧ (σ.act s).st.rank < 4
      · rw [if_pos h2, if_pos (by rw [e2]; exact h2)]
        simp [upd2, State.mod]
      · rw [if_neg h2, if_neg (by rw [e2]; exact h2)]
        simp [upd2, State.mod]

/-- A server that is started confirms every request it has kept, and afterwards keeps none. -/
theorem C41_kept_until_started {ops : List Op} {σ σ' : State} {s : Nat} (h : run State.init ops = .ok σ)
    (hs : step σ (.start s) = .ok σ') (c : Nat) :
    (∀ rid, srvRec (σ.hist c s) = some (some rid) → ∃ op, σ'.hist c s = .answered rid true op .operational :: σ.hist c s ∧
      σ'.dn s c = σ.dn s c ++ [Dn.linkRes rid true]) ∧
    ∀ rid, srvRec (σ'.hist c s) ≠ some (some rid) := by
  obtain ⟨hh, hm⟩ := reach_HM (reach_of_run .init h) c s
  obtain ⟨hh', hm'⟩ := reach_HM (Reach.step (φ := .any) (.start s) (reach_of_run .init h) (by simp [Fl.any]) (by simp [Fl.any])
    (by simp [Fl.any]) (by simp [Fl.any]) (by simp [Fl.any]) hs) c s
  simp only [step] at hs
  split at hs
  · injection hs with hs
    refine ⟨fun rid hp => ?_, fun rid hp => ?_⟩
    · obtain ⟨op, hq⟩ := (srvRec_pending hm).1 hp
      have hq' : (σ.act s).clients.find c = some (.pending rid op) := hq
      subst hs
      exact ⟨op, by simp [onStart, hq'], by simp [onStart, hq']⟩
    · obtain ⟨op, hq⟩ := (srvRec_pending hm').1 hp
      refine hh'.pend rid op hq ?_
      subst hs
      simp [view, onStart, State.mod, upd]
  · simp at hs

/-- If no timer expires and no message is in transit, a request has been answered and the client knows, or the client has left, or
the server keeps it and is not operational, or the server is closed. -/
theorem C41_answered_when_quiet {φ : Fl} (hrl : φ.rl = true) (hnt : φ.nt = true) {σ : State} (h : Reach φ σ) (hq : Quiet σ)
    (c s rid : Nat) (st : AState) (ha : PEv.asked rid st ∈ σ.hist c s) :
    (∃ ok, PEv.known rid ok ∈ σ.hist c s) ∨ PEv.left ∈ σ.hist c s ∨
    (srvRec (σ.hist c s) = some (some rid) ∧ (σ.act s).st ≠ .operational) ∨ (σ.act s).closed = true := by
  obtain ⟨hh, hm, hk, hqq⟩ := reach_Cl hrl hnt h c s
  rcases hqq.asked rid st ha with hr | hr | hr
  · have hdn : (view σ c s).dn = [] := (hq c s).2
    have hup : (view σ c s).up = [] := (hq c s).1
    rcases hk.plink rid hr with ⟨op, h1, _⟩ | ⟨op, h1, h2, _⟩ | ⟨_, _, h3⟩ | ⟨_, _, _, h3⟩ | ⟨_, _, h2, _⟩
    · rw [hup] at h1; simp at h1
    · exact .inr (.inr (.inl ⟨(srvRec_pending hm).2 ⟨op, h2⟩, hh.pend rid op h2⟩))
    · rw [hdn] at h3; simp [ans] at h3
    · rw [hdn] at h3; simp [ans] at h3
    · exact .inr (.inr (.inr (hh.dfs h2)))
  · exact .inl hr
  · exact .inr (.inl hr)

/-- If no timer expires a client learns of a refusal only if the server has refused. -/
theorem C41_refusals_are_real {φ : Fl} (hrl : φ.rl = true) (hnt : φ.nt = true) {σ : State} (h : Reach φ σ) (c s rid : Nat)
    (hk : PEv.known rid false ∈ σ.hist c s) : ∃ op st, PEv.answered rid false op st ∈ σ.hist c s :=
  (reach_Cl hrl hnt h c s).2.2.2.refused rid hk

/-- If no timer expires the only assertions that can fail are those on a second link with the same server and on a link that is
confirmed to an actor whose shutdown has begun during its initialization. -/
theorem C41_assertions_hold {φ : Fl} (hrl : φ.rl = true) (hnt : φ.nt = true) {σ : State} (h : Reach φ σ) (op : Op)
    (ht : isTimeout op = false) : step σ op ≠ .error .noRecord ∧ step σ op ≠ .error .discard ∧ step σ op ≠ .error .timer ∧
      step σ op ≠ .error .noClient := by
  have key : ∀ e, step σ op = .error e → e = .illegal ∨ e = .twice ∨ e = .initCont := fun e => step_err (reach_Cl hrl hnt h) ht
  refine ⟨fun h => ?_, fun h => ?_, fun h => ?_, fun h => ?_⟩ <;> · have := key _ h; simp at this

/-! ## C42 -/

/-- An actor that has answered its init request with success: every link it asked for while initializing has been confirmed, or the
server has asked to be unlinked meanwhile and the actor agreed; none was refused. -/
theorem C42_initialized_after_links {φ : Fl} (hrl : φ.rl = true) (hnl : φ.nl = true) {σ : State} (h : Reach φ σ) (c : Nat)
    (hi : true ∈ (σ.act c).inits) (s rid : Nat) (ha : PEv.asked rid .initializing ∈ σ.hist c s) :
    (PEv.known rid true ∈ σ.hist c s ∨ ∃ u, PEv.unlinked u ∈ σ.hist c s) ∧ PEv.known rid false ∉ σ.hist c s := by
  have hl := reach_L hrl hnl h c s
  exact (hl.ok (by simpa [view] using hi) rid ha).2

/-- the init request is answered at most once -/
theorem C42_init_answered_once {ops : List Op} {σ : State} (h : run State.init ops = .ok σ) (c : Nat) :
    (σ.act c).inits.length ≤ 1 ∧ ((σ.act c).initReq = true → (σ.act c).inits = []) ∧
    ((σ.act c).asked = false → (σ.act c).inits = []) := by
  have hj : (σ.act c).inits.length + (if (σ.act c).initReq = true then 1 else 0) ≤ (if (σ.act c).asked = true then 1 else 0) :=
    (reach_J (reach_of_run .init h) c c).one
  refine ⟨?_, fun e => ?_, fun e => ?_⟩
  · split at hj <;> split at hj <;> omega
  · rw [e] at hj
    cases hi : (σ.act c).inits with
    | nil => rfl
    | cons a l => rw [hi] at hj; simp at hj; split at hj <;> omega
  · rw [e] at hj
    cases hi : (σ.act c).inits with
    | nil => rfl
    | cons a l => rw [hi] at hj; simp at hj

/-- A refused link makes the initialization fail at once, if the init request is not answered yet. -/
theorem C42_refused_link_fails (σ : State) (c s rid : Nat) (t : List Dn) (o : Ora) (hd : σ.dn s c = .linkRes rid false :: t)
    (hl : rid ∈ σ.lreq c s) (hf : (σ.act c).deafC = false) (hr : (σ.act c).servers.find s ≠ none) (hi : (σ.act c).initReq = true) :
    ∃ σ', step σ (.dn s c o) = .ok σ' ∧ (σ'.act c).initReq = false ∧ (σ'.act c).inits = false :: (σ.act c).inits ∧
      (σ'.act c).st = (σ.act c).st := by
  cases hp : (σ.act c).servers.find s with
  | none => exact absurd hp hr
  | some p =>
    refine ⟨_, by simp [step, recvDn, hd, hl, hf, onLinkRes, hp, hi]; rfl, ?_, ?_, ?_⟩
    · rw [mod_act_self]
    · rw [mod_act_self, mod_act_self]
    · rw [mod_act_self, mod_act_self]

/-- If no timer expires and no message is in transit, an actor that has not answered its init request waits for a server that keeps
its link request because it is not operational, or for one that is closed; the other plugins agree to the initialization. -/
theorem C42_waits_for_links_only {φ : Fl} (hrl : φ.rl = true) (hnt : φ.nt = true) (hw : φ.wi = true) {σ : State} (h : Reach φ σ)
    (hq : Quiet σ) (c : Nat) (hs : (σ.act c).st = .initializing) (hi : (σ.act c).initReq = true) :
    ∃ s rid st, PEv.asked rid st ∈ σ.hist c s ∧ (∀ ok, PEv.known rid ok ∉ σ.hist c s) ∧
      ((srvRec (σ.hist c s) = some (some rid) ∧ (σ.act s).st ≠ .operational) ∨ (σ.act s).closed = true) := by
  obtain ⟨s, rid, hf⟩ := (reach_busy hrl hnt hw h c hs).2 hi
  obtain ⟨hh, hm, hk, -⟩ := reach_Cl hrl hnt h c s
  have hdn : (view σ c s).dn = [] := (hq c s).2
  have hup : (view σ c s).up = [] := (hq c s).1
  have hlr : (view σ c s).lreq = [rid] := by
    rcases hk.lr with h | ⟨r, h, h'⟩
    · exact absurd hf (h.2 rid)
    · have hf' : (view σ c s).r = some (.linking rid) := hf
      rw [hf'] at h'; simp at h'; rw [h']; exact h
  have hkn := hm.kn rid
  have hone := hm.one rid
  rw [hlr] at hkn
  simp at hkn
  have hpos : 0 < (σ.hist c s).countP (isAsk rid) := by
    have hx : (view σ c s).hist = σ.hist c s := rfl
    rw [hx] at hkn
    omega
  obtain ⟨e, he, hp⟩ := List.countP_pos_iff.1 hpos
  obtain ⟨st, rfl⟩ : ∃ st, e = .asked rid st := by
    cases e with
    | asked r st => simp [isAsk] at hp; subst hp; exact ⟨st, rfl⟩
    | _ => simp [isAsk] at hp
  refine ⟨s, rid, st, he, fun ok hko => ?_, ?_⟩
  · have : 0 < (view σ c s).hist.countP (isKnown rid) := List.countP_pos_iff.2 ⟨_, hko, by simp [isKnown]⟩
    split at hone <;> omega
  rcases hk.plink rid hf with ⟨op, h1, _⟩ | ⟨op, h1, h2, _⟩ | ⟨_, _, h3⟩ | ⟨_, _, _, h3⟩ | ⟨_, _, h2, _⟩
  · rw [hup] at h1; simp at h1
  · exact .inl ⟨(srvRec_pending hm).2 ⟨op, h2⟩, hh.pend rid op h2⟩
  · rw [hdn] at h3; simp [ans] at h3
  · rw [hdn] at h3; simp [ans] at h3
  · exact .inr (hh.dfs h2)

/-! ## C43 -/

theorem one_uask : ∀ h : List PEv, Legal h → h.countP isUAsk ≤ 1
  | [], _ => by simp
  | e :: h, hl => by
    have ih := one_uask h hl.2
    cases e with
    | unlinkAsked u =>
      have hn := hl.1.2
      have : h.countP isUAsk = 0 := by
        rw [List.countP_eq_zero]
        intro x hx
        cases x with
        | unlinkAsked w => exact absurd hx (hn w)
        | _ => simp [isUAsk]
      rw [List.countP_cons, this]; simp [isUAsk]
    | _ => simpa [List.countP_cons, isUAsk] using ih

/-- A client is asked at most once to unlink. -/
theorem C43_asked_once {ops : List Op} {σ : State} (h : run State.init ops = .ok σ) (c s : Nat) :
    (σ.hist c s).countP isUAsk ≤ 1 := one_uask _ (C41_rules h c s)

/-- If the other plugins agree to the shutdown, a server that is shutting down and whose links are not closed has asked every
linked client. -/
theorem C43_every_client_asked {φ : Fl} (hag : φ.ag = true) {σ : State} (h : Reach φ σ) (s c : Nat)
    (hs : (σ.act s).st = .shuttingDown) (hl : srvRec (σ.hist c s) = some none) : ∃ u, PEv.unlinkAsked u ∈ σ.hist c s := by
  obtain ⟨hh, hm⟩ := reach_HM h c s
  have hq := (srvRec_linked hm).1 hl
  have hc : (σ.act s).closed = false := by
    cases e : (σ.act s).closed with
    | false => rfl
    | true =>
      have := (hh.sclosed e).1
      rcases hq with h | ⟨u, h⟩
      · rw [this] at h; simp at h
      · rw [this] at h; simp at h
  have hw := (reach_wait hag h s hs hc).2 c
  rcases hq with h | ⟨u, h⟩
  · exact absurd h hw
  · exact ⟨u, hm.qu u h⟩

/-- If no timer expires and no message is in transit, the two sides agree whether they are linked. -/
theorem C43_both_sides_agree {φ : Fl} (hrl : φ.rl = true) (hnt : φ.nt = true) {σ : State} (h : Reach φ σ) (hq : Quiet σ) (c s : Nat) :
    cliLinked (σ.hist c s) = true ↔ srvRec (σ.hist c s) = some none := by
  obtain ⟨hh, hm, hk, -⟩ := reach_Cl hrl hnt h c s
  have hdn : (view σ c s).dn = [] := (hq c s).2
  have hup : (view σ c s).up = [] := (hq c s).1
  have e1 : cliLinked (σ.hist c s) = true ↔ (view σ c s).r = some .operational := cliLinked_iff hm
  have e2 : srvRec (σ.hist c s) = some none ↔ linkedQ (view σ c s).q := srvRec_linked hm
  rw [e1, e2]
  refine ⟨fun hr => (hh.rop hr).1, fun hl => ?_⟩
  cases hr : (view σ c s).r with
  | none =>
    exfalso
    have hqn : (view σ c s).q = none := by
      rcases hk.pnone hr with h | ⟨u, h, -⟩ | ⟨-, h⟩ | ⟨rid, op, -, h, -⟩
      · exact h.2
      · rw [hup] at h; simp at h
      · rw [hup] at h; simp at h
      · rw [hup] at h; simp at h
    rcases hl with h | ⟨u, h⟩ <;> · rw [hqn] at h; simp at h
  | some p =>
    cases p with
    | operational => rfl
    | linking rid =>
      exfalso
      rcases hk.plink rid hr with ⟨op, h1, _⟩ | ⟨op, _, h2, _⟩ | ⟨_, _, h3⟩ | ⟨_, _, _, h3⟩ | ⟨_, h2, _⟩
      · rw [hup] at h1; simp at h1
      · rcases hl with h | ⟨u, h⟩ <;> · rw [h2] at h; simp at h
      · rw [hdn] at h3; simp [ans] at h3
      · rw [hdn] at h3; simp [ans] at h3
      · rcases hl with h | ⟨u, h⟩ <;> · rw [h2] at h; simp at h

/-- If no timer expires and no message is in transit, then after an unlink request nothing is left of the link on either side, unless
the client has the request in its queue (it has clients itself, or had) or its user keeps it. -/
theorem C43_nothing_left {φ : Fl} (hrl : φ.rl = true) (hnt : φ.nt = true) {σ : State} (h : Reach φ σ) (hq : Quiet σ) (c s u : Nat)
    (hu : PEv.unlinkAsked u ∈ σ.hist c s) :
    (cliLinked (σ.hist c s) = false ∧ srvRec (σ.hist c s) = none) ∨ (σ.act c).unlinkQ.find s ≠ none ∨ (s, u) ∈ (σ.act c).kept := by
  obtain ⟨hh, hm, hk, hqq⟩ := reach_Cl hrl hnt h c s
  have hdn : (view σ c s).dn = [] := (hq c s).2
  have hup : (view σ c s).up = [] := (hq c s).1
  rcases hqq.unl u hu with h | h | h | ⟨hr, -⟩
  · rw [hdn] at h; simp at h
  · exact .inr (.inl h)
  · exact .inr (.inr (mem_keptOf.1 h))
  · refine .inl ⟨?_, ?_⟩
    · cases hl : cliLinked (σ.hist c s) with
      | false => rfl
      | true => have := (cliLinked_iff hm).1 hl; rw [hr] at this; simp at this
    · refine (srvRec_none hm).2 ?_
      rcases hk.pnone hr with h | ⟨u, h, -⟩ | ⟨-, h⟩ | ⟨rid, op, -, h, -⟩
      · exact h.2
      · rw [hup] at h; simp at h
      · rw [hup] at h; simp at h
      · rw [hup] at h; simp at h

/-- If no timer expires and no message is in transit, nothing is left of the links of a client that is shut down, whatever its
servers do meanwhile. -/
theorem C43_client_gone {φ : Fl} (hrl : φ.rl = true) (hnt : φ.nt = true) {σ : State} (h : Reach φ σ) (hq : Quiet σ) (c s : Nat)
    (hc : (σ.act c).closed = true) : cliLinked (σ.hist c s) = false ∧ srvRec (σ.hist c s) = none := by
  obtain ⟨hh, hm, hk, -⟩ := reach_Cl hrl hnt h c s
  have hup : (view σ c s).up = [] := (hq c s).1
  have hr := (hh.left (hh.cclosed hc)).1
  refine ⟨?_, ?_⟩
  · cases hl : cliLinked (σ.hist c s) with
    | false => rfl
    | true => have := (cliLinked_iff hm).1 hl; rw [hr] at this; simp at this
  · refine (srvRec_none hm).2 ?_
    rcases hk.pnone hr with h | ⟨u, h, -⟩ | ⟨-, h⟩ | ⟨rid, op, -, h, -⟩
    · exact h.2
    · rw [hup] at h; simp at h
    · rw [hup] at h; simp at h
    · rw [hup] at h; simp at h

/-- If no timer expires, an actor has no clients and keeps no requests, then an unlink request that arrives is granted at once. -/
theorem C43_granted_at_once (σ : State) (c s u : Nat) (t : List Dn) (o : Ora) (hd : σ.dn s c = .unlinkReq u :: t)
    (hf : (σ.act c).deafC = false) (hh : o.handled = false) (hr : (σ.act c).servers.find s ≠ none) (hc : (σ.act c).clients = [])
    (hn : (σ.act c).unlinkQ.find s = none) (hs : (σ.act c).st ≠ .shuttingDown) :
    ∃ σ', step σ (.dn s c o) = .ok σ' ∧ σ'.up c s = σ.up c s ++ [.unlinkRes u] ∧ σ'.hist c s = .unlinked u :: σ.hist c s ∧
      (σ'.act c).servers.find s = none := by
  have e : ((σ.act c).unlinkQ ++ [(s, u)]).find s = some u := by
    have := find_append_one s u s (σ.act c).unlinkQ
    rw [this, hn]; simp
  have key : step σ (.dn s c o) = .ok (tryForget c (State.mod { σ with dn := upd2 σ.dn s c t } c (fun a => { a with unlinkQ := a.unlinkQ ++ [(s, u)] }))) := by
    have hs' : ((tryForget c (State.mod { σ with dn := upd2 σ.dn s c t } c (fun a => { a with unlinkQ := a.unlinkQ ++ [(s, u)] }))).act c).st =
        (σ.act c).st := by
      obtain ⟨⟨sv, ee⟩, -⟩ := tryForget_act c (State.mod { σ with dn := upd2 σ.dn s c t } c (fun a => { a with unlinkQ := a.unlinkQ ++ [(s, u)] }))
      rw [ee, mod_act_self]
    simp only [step, recvDn, hd, hf, hh, forgetLink, Bool.false_eq_true, if_false, if_neg hr, continueIf, hs', if_neg hs]
    split <;> rfl
  refine ⟨_, key, ?_, ?_, ?_⟩
  · simp [tryForget, State.mod, upd, hc, e, hr]
  · simp [tryForget, State.mod, upd, hc, e, hr]
  · simp only [tryForget, State.mod, upd, hc, if_true]
    rw [find_filter_key (fun k => (AMap.find ((σ.act c).unlinkQ ++ [(s, u)]) k).isNone), e]
    simp

end Verif.Link
