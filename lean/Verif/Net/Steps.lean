import Verif.Net.Subs

/-!
# Every step preserves the invariants
-/

namespace Verif.Net
open Verif

structure Inv (c : Cfg) (s : State) : Prop where
  Q : InvQ c s
  E : InvE c s
  T : InvT c s
  P : InvP c s

theorem inv_init (c : Cfg) : Inv c State.init := by
  refine ⟨⟨?_, ?_, ?_, ?_, ?_, ?_⟩, ⟨?_, ?_, ?_, ?_⟩, ⟨?_, ?_, ?_, ?_, ?_, ?_, ?_⟩, ⟨?_, ?_, ?_, ?_, ?_, ?_, ?_, ?_⟩⟩ <;>
    simp [State.init, sentFrom, tookFrom, sentTo, tookTo, sentUids, pend, execU, callU, tookU, AMap.find, pipe, ops, Chain]

/-- what handlers' actions do not touch: calls seen and to be seen, messages taken -/
def Same (c : Cfg) (s s' : State) : Prop :=
  (∀ h l d, pend c s' h l d = pend c s h l d) ∧ (∀ l d, tookU c l d s'.log = tookU c l d s.log)

theorem Same.refl (c : Cfg) (s : State) : Same c s s := ⟨fun _ _ _ => rfl, fun _ _ => rfl⟩
theorem Same.trans {c : Cfg} {s s' s'' : State} (h1 : Same c s s') (h2 : Same c s' s'') : Same c s s'' :=
  ⟨fun h l d => (h2.1 h l d).trans (h1.1 h l d), fun l d => (h2.2 l d).trans (h1.2 l d)⟩
theorem same_send (c : Cfg) (s s1 : State) (a dest : Nat) (body : Body) (hb : ∀ h o, body ≠ .call h o)
    (h1 : s1.queue = s.queue) (h2 : s1.inb = s.inb) (h3 : s1.log = s.log) : Same c s (send c a dest body s1) := by
  constructor
  · intro h l d; rw [pend_send c s1 a dest body hb]; simp only [pend, h1, h2, h3]
  · intro l d; simp only [send, tookU_sent, h3]

theorem inv_send_user (c : Cfg) (s : State) (a dest ty : Nat) (h : Inv c s) : Inv c (send c a dest (.user ty) s) :=
  ⟨invQ_send c s a dest _ h.Q, invE_send c s a dest _ (by simp) h.E, h.T.of rfl rfl rfl, invP_send c s a dest _ h.P (by simp)⟩

theorem find_points_ne {s : State} {h hd : Handler} {addr ad : Nat} {p : Point} (hne : ¬ (hd = h ∧ ad = addr)) :
    (s.points.set (h, addr) p).find (hd, ad) = s.points.find (hd, ad) := by
  rw [AMap.find_set_ne]
  intro he
  simp only [Prod.mk.injEq] at he
  exact hne he

theorem inv_subscribe (c : Cfg) (s s' : State) (a : Nat) (h : Handler) (addr : Nat) (anon : Bool) (hi : Inv c s)
    (he : subscribe c a h addr anon s = .ok s') : Inv c s' ∧ Same c s s' := by
  simp only [subscribe] at he
  by_cases hc : h.actor ≠ a ∨ (s.points.find (h, addr)).isSome
  · rw [if_pos hc] at he; simp at he
  · rw [if_neg hc] at he
    have hact : h.actor = a := by
      by_cases h1 : h.actor = a
      · exact h1
      · exact absurd (.inl h1) hc
    have hnone : s.points.find (h, addr) = none := by
      cases hf : s.points.find (h, addr) with
      | none => rfl
      | some p => exact absurd (.inr (by rw [hf]; rfl)) hc
    subst hact
    by_cases hl : c.locD addr = c.locA h.actor
    · rw [if_pos hl] at he
      simp only [Except.ok.injEq] at he
      subst he
      refine ⟨⟨?_, ?_, ?_, ?_⟩, same_send c s _ _ _ _ (by simp) rfl rfl rfl⟩
      · apply invQ_send; exact hi.Q.of rfl rfl rfl (Nat.le_refl _)
      · apply invE_send
        · simp
        · exact hi.E.of rfl rfl rfl
      · have hni : h ∉ (s.subs addr h.ty).int := by
          intro hm; rw [hi.T.intIff h addr hl, hnone] at hm; simp at hm
        refine InvT.of (s := setSubs { s with points := s.points.set (h, addr) ⟨anon, false⟩, listed := s.listed ++ [((h, addr), anon)] } addr h.ty
          { s.subs addr h.ty with int := (s.subs addr h.ty).int ++ [h] }) ?_ rfl rfl rfl
        refine ⟨?_, ?_, ?_, ?_, ?_, ?_, hi.T.forN⟩
        · intro hd ad hx
          simp only [setSubs]
          by_cases e : ad = addr ∧ hd.ty = h.ty
          · obtain ⟨rfl, e2⟩ := e
            simp only [e2, and_self, if_true, List.mem_append, List.mem_singleton]
            by_cases e3 : hd = h
            · subst e3; simp [AMap.find_set_self]
            · rw [find_points_ne (fun hh => e3 hh.1)]
              have := hi.T.intIff hd ad hx
              rw [e2] at this
              simp [e3, this]
          · rw [if_neg e, find_points_ne (fun hh => e ⟨hh.2, by rw [hh.1]⟩)]
            exact hi.T.intIff hd ad hx
        · intro hd ad ty hm
          simp only [setSubs] at hm
          by_cases e : ad = addr ∧ ty = h.ty
          · rw [if_pos e] at hm
            obtain ⟨rfl, rfl⟩ := e
            simp only [List.mem_append, List.mem_singleton] at hm
            rcases hm with hm | rfl
            · exact hi.T.intTy hd ad _ hm
            · exact ⟨rfl, hl⟩
          · rw [if_neg e] at hm; exact hi.T.intTy hd ad ty hm
        · intro hd ad ty hm
          simp only [setSubs] at hm
          by_cases e : ad = addr ∧ ty = h.ty
          · rw [if_pos e] at hm
            obtain ⟨rfl, rfl⟩ := e
            exact hi.T.extTy hd ad _ hm
          · rw [if_neg e] at hm; exact hi.T.extTy hd ad ty hm
        · intro hd ad hm
          obtain ⟨h1, h2⟩ := hi.T.extIff hd ad hm
          refine ⟨?_, h2⟩
          simp only [setSubs]
          by_cases e : ad = addr ∧ hd.ty = h.ty
          · rw [if_pos e]; obtain ⟨rfl, e2⟩ := e; rw [← e2]; exact h1
          · rw [if_neg e]; exact h1
        · intro ad ty
          simp only [setSubs]
          by_cases e : ad = addr ∧ ty = h.ty
          · rw [if_pos e]
            rw [List.nodup_append]
            refine ⟨hi.T.intN _ _, by simp, ?_⟩
            intro x hx y hy
            simp only [List.mem_singleton] at hy
            subst hy; intro he; subst he; exact hni hx
          · rw [if_neg e]; exact hi.T.intN ad ty
        · intro ad ty
          simp only [setSubs]
          by_cases e : ad = addr ∧ ty = h.ty
          · rw [if_pos e]; exact hi.T.extN _ _
          · rw [if_neg e]; exact hi.T.extN ad ty
      · apply invP_send
        · refine InvP.of (s := { s with points := s.points.set (h, addr) ⟨anon, false⟩, listed := s.listed ++ [((h, addr), anon)] }) ?_ rfl rfl rfl rfl
          refine ⟨?_, hi.P.srcQ, hi.P.srcI, hi.P.own, ?_, ?_, hi.P.unQ, hi.P.unI⟩
          · intro hd ad hx
            have := hi.P.chain hd ad hx
            rw [find_points_ne (fun hh => by obtain ⟨rfl, rfl⟩ := hh; exact hx hl)]; exact this
          · intro hd ad p hp
            by_cases e : hd = h ∧ ad = addr
            · obtain ⟨rfl, rfl⟩ := e
              simp only [AMap.find_set_self, Option.some.injEq] at hp
              subst hp
              simpa using hi.P.leaveN hd ad hnone
            · simp only [find_points_ne e] at hp; exact hi.P.leave hd ad p hp
          · intro hd ad hp
            by_cases e : hd = h ∧ ad = addr
            · obtain ⟨rfl, rfl⟩ := e
              simp [AMap.find_set_self] at hp
            · simp only [find_points_ne e] at hp; exact hi.P.leaveN hd ad hp
        · simp
    · rw [if_neg hl] at he
      simp only [Except.ok.injEq] at he
      subst he
      refine ⟨⟨?_, ?_, ?_, ?_⟩, same_send c s _ _ _ _ (by simp) rfl rfl rfl⟩
      · apply invQ_send; exact hi.Q.of rfl rfl rfl (Nat.le_refl _)
      · apply invE_send
        · simp
        · exact hi.E.of rfl rfl rfl
      · refine InvT.of (s := { s with points := s.points.set (h, addr) ⟨anon, false⟩, listed := s.listed ++ [((h, addr), anon)] }) ?_ rfl rfl rfl
        refine ⟨?_, hi.T.intTy, hi.T.extTy, hi.T.extIff, hi.T.intN, hi.T.extN, hi.T.forN⟩
        intro hd ad hx
        rw [find_points_ne (fun hh => by obtain ⟨rfl, rfl⟩ := hh; exact hl hx)]
        exact hi.T.intIff hd ad hx
      · have hpt : ∀ hd ad, (send c h.actor (c.supAddr (c.locD addr)) (.extSub h addr) { s with points := s.points.set (h, addr) ⟨anon, false⟩, listed := s.listed ++ [((h, addr), anon)] }).points.find (hd, ad) =
            (s.points.set (h, addr) ⟨anon, false⟩).find (hd, ad) := fun _ _ => rfl
        have hcnt : ∀ hd ad, ((send c h.actor (c.supAddr (c.locD addr)) (.extSub h addr) { s with points := s.points.set (h, addr) ⟨anon, false⟩, listed := s.listed ++ [((h, addr), anon)] }).queue (c.locA hd.actor)).countP (isUnsub hd ad) =
            (s.queue (c.locA hd.actor)).countP (isUnsub hd ad) := by
          intro hd ad
          simp only [send]
          by_cases e : c.locA hd.actor = c.locA h.actor
          · rw [e, upd_self, List.countP_append]; simp [isUnsub]
          · rw [upd_ne _ _ _ _ e]
        refine ⟨?_, ?_, hi.P.srcI, ?_, ?_, ?_, ?_, hi.P.unI⟩
        · intro hd ad hx
          have hch := hi.P.chain hd ad hx
          rw [hpt]
          by_cases e : hd = h ∧ ad = addr
          · obtain ⟨rfl, rfl⟩ := e
            rw [pipe_send c _ _ _ _ hd ad hx (.inr rfl), AMap.find_set_self]
            have ho : protoOp hd ad ⟨s.next, some hd.actor, c.supAddr (c.locD ad), .extSub hd ad⟩ = some true := by simp [protoOp]
            rw [ho]
            rw [hnone] at hch
            exact chain_append true _ _ _ _ hch (by simp) rfl
          · have ho : protoOp hd ad ⟨s.next, some h.actor, c.supAddr (c.locD addr), .extSub h addr⟩ = none := by
              simp only [protoOp]; rw [if_neg]; rintro ⟨rfl, rfl⟩; exact e ⟨rfl, rfl⟩
            have hps := pipe_send c { s with points := s.points.set (h, addr) ⟨anon, false⟩, listed := s.listed ++ [((h, addr), anon)] } h.actor (c.supAddr (c.locD addr)) (.extSub h addr) hd ad hx (.inl ho)
            simp only at hps
            rw [hps, ho, find_points_ne e]
            simp only [Option.toList_none, List.append_nil]; exact hch
        · intro k m' hd ad hm hp
          rcases mem_send hm with hm | ⟨rfl, _⟩
          · exact hi.P.srcQ k m' hd ad hm hp
          · simp only [isProto, Body.extSub.injEq, reduceCtorEq, or_false] at hp
            obtain ⟨rfl, rfl⟩ := hp
            exact ⟨hl, rfl⟩
        · intro k m' hd ad hm hp
          rcases hm with hm | hm
          · rcases mem_send hm with hm | ⟨rfl, _⟩
            · exact hi.P.own k m' hd ad (.inl hm) hp
            · simp only [isProto, Body.extSub.injEq, reduceCtorEq, or_false] at hp
              obtain ⟨rfl, rfl⟩ := hp; rfl
          · exact hi.P.own k m' hd ad (.inr hm) hp
        · intro hd ad p hp
          rw [hpt] at hp
          rw [hcnt]
          by_cases e : hd = h ∧ ad = addr
          · obtain ⟨rfl, rfl⟩ := e
            simp only [AMap.find_set_self, Option.some.injEq] at hp
            subst hp
            simpa using hi.P.leaveN hd ad hnone
          · rw [find_points_ne e] at hp; exact hi.P.leave hd ad p hp
        · intro hd ad hp
          rw [hpt] at hp
          rw [hcnt]
          by_cases e : hd = h ∧ ad = addr
          · obtain ⟨rfl, rfl⟩ := e
            simp [AMap.find_set_self] at hp
          · rw [find_points_ne e] at hp; exact hi.P.leaveN hd ad hp
        · intro k m' hd ad hm hp
          rcases mem_send hm with hm | ⟨rfl, _⟩
          · exact hi.P.unQ k m' hd ad hm hp
          · simp at hp

theorem inv_unsubscribe (c : Cfg) (s s' : State) (a : Nat) (h : Handler) (addr : Nat) (hi : Inv c s)
    (he : unsubscribe c a h addr s = .ok s') : Inv c s' ∧ Same c s s' := by
  simp only [unsubscribe] at he
  by_cases hc : h.actor ≠ a
  · rw [if_pos hc] at he; simp at he
  · rw [if_neg hc] at he
    simp only [Decidable.not_not] at hc
    subst hc
    cases hf : s.points.find (h, addr) with
    | none =>
      rw [hf] at he
      simp only at he
      by_cases hk : (h, addr) ∈ s.listed.map (·.1)
      · rw [if_pos hk] at he
        simp only [Except.ok.injEq] at he
        subst he
        exact ⟨hi, Same.refl c s⟩
      · rw [if_neg hk] at he; simp at he
    | some p =>
      rw [hf] at he
      simp only at he
      by_cases hlv : p.leaving = true
      · rw [if_pos hlv] at he
        simp only [Except.ok.injEq] at he
        subst he; exact ⟨hi, Same.refl c s⟩
      · rw [if_neg hlv] at he
        simp only [Except.ok.injEq] at he
        subst he
        have hpt : ∀ hd ad, (send c h.actor (c.addrOf h.actor) (.unsub h addr) { s with points := s.points.set (h, addr) { p with leaving := true } }).points.find (hd, ad) =
            (s.points.set (h, addr) { p with leaving := true }).find (hd, ad) := fun _ _ => rfl
        have hsome : ∀ hd ad, ((s.points.set (h, addr) { p with leaving := true }).find (hd, ad)).isSome = (s.points.find (hd, ad)).isSome := by
          intro hd ad
          by_cases e : hd = h ∧ ad = addr
          · obtain ⟨rfl, rfl⟩ := e; simp [AMap.find_set_self, hf]
          · rw [find_points_ne e]
        have hcnt : ∀ hd ad, ((send c h.actor (c.addrOf h.actor) (.unsub h addr) { s with points := s.points.set (h, addr) { p with leaving := true } }).queue (c.locA hd.actor)).countP (isUnsub hd ad) =
            (s.queue (c.locA hd.actor)).countP (isUnsub hd ad) + if hd = h ∧ ad = addr then 1 else 0 := by
          intro hd ad
          simp only [send]
          by_cases e : c.locA hd.actor = c.locA h.actor
          · rw [e, upd_self, List.countP_append]
            congr 1
            by_cases e2 : hd = h ∧ ad = addr
            · obtain ⟨rfl, rfl⟩ := e2; simp [isUnsub]
            · rw [if_neg e2]
              have : isUnsub hd ad ⟨s.next, some h.actor, c.addrOf h.actor, .unsub h addr⟩ = false := by
                simp only [isUnsub, decide_eq_false_iff_not]; rintro ⟨rfl, rfl⟩; exact e2 ⟨rfl, rfl⟩
              simp [this]
          · rw [upd_ne _ _ _ _ e, if_neg]
            · rfl
            · rintro ⟨rfl, _⟩; exact e rfl
        refine ⟨⟨?_, ?_, ?_, ?_⟩, same_send c s _ _ _ _ (by simp) rfl rfl rfl⟩
        · apply invQ_send; exact hi.Q.of rfl rfl rfl (Nat.le_refl _)
        · apply invE_send
          · simp
          · exact hi.E.of rfl rfl rfl
        · refine InvT.of (s := { s with points := s.points.set (h, addr) { p with leaving := true } }) ?_ rfl rfl rfl
          refine ⟨?_, hi.T.intTy, hi.T.extTy, hi.T.extIff, hi.T.intN, hi.T.extN, hi.T.forN⟩
          intro hd ad hx
          rw [hsome]; exact hi.T.intIff hd ad hx
        · refine ⟨?_, ?_, hi.P.srcI, ?_, ?_, ?_, ?_, hi.P.unI⟩
          · intro hd ad hx
            have hch := hi.P.chain hd ad hx
            have ho : protoOp hd ad ⟨s.next, some h.actor, c.addrOf h.actor, .unsub h addr⟩ = none := rfl
            have hps := pipe_send c { s with points := s.points.set (h, addr) { p with leaving := true } } h.actor (c.addrOf h.actor) (.unsub h addr) hd ad hx (.inl ho)
            simp only at hps
            rw [hps, hpt, hsome, ho]
            simp only [Option.toList_none, List.append_nil]; exact hch
          · intro k m' hd ad hm hp
            rcases mem_send hm with hm | ⟨rfl, _⟩
            · exact hi.P.srcQ k m' hd ad hm hp
            · simp [isProto] at hp
          · intro k m' hd ad hm hp
            rcases hm with hm | hm
            · rcases mem_send hm with hm | ⟨rfl, _⟩
              · exact hi.P.own k m' hd ad (.inl hm) hp
              · simp [isProto] at hp
            · exact hi.P.own k m' hd ad (.inr hm) hp
          · intro hd ad q hp
            rw [hpt] at hp
            rw [hcnt]
            by_cases e : hd = h ∧ ad = addr
            · obtain ⟨rfl, rfl⟩ := e
              simp only [AMap.find_set_self, Option.some.injEq] at hp
              subst hp
              have := hi.P.leave hd ad p hf
              rw [if_neg hlv] at this
              simp [this]
            · rw [find_points_ne e] at hp
              rw [if_neg e]; exact hi.P.leave hd ad q hp
          · intro hd ad hp
            rw [hpt] at hp
            rw [hcnt]
            by_cases e : hd = h ∧ ad = addr
            · obtain ⟨rfl, rfl⟩ := e
              simp [AMap.find_set_self] at hp
            · rw [find_points_ne e] at hp; rw [if_neg e]; exact hi.P.leaveN hd ad hp
          · intro k m' hd ad hm hp
            rcases mem_send hm with hm | ⟨rfl, hk⟩
            · exact hi.P.unQ k m' hd ad hm hp
            · simp only [Body.unsub.injEq] at hp
              obtain ⟨rfl, rfl⟩ := hp
              exact ⟨hk, by rw [hk]; exact c.hOf _⟩

theorem inv_runActs (c : Cfg) (a : Nat) : ∀ (l : List Act) (s s' : State), Inv c s → runActs c a l s = .ok s' → Inv c s' ∧ Same c s s' := by
  intro l
  induction l with
  | nil => intro s s' hi he; simp only [runActs, Except.ok.injEq] at he; subst he; exact ⟨hi, Same.refl c s⟩
  | cons x l ih =>
    intro s s' hi he
    cases x with
    | send dest ty =>
      simp only [runActs] at he
      obtain ⟨h1, h2⟩ := ih _ s' (inv_send_user c s a dest ty hi) he
      exact ⟨h1, (same_send c s s a dest _ (by simp) rfl rfl rfl).trans h2⟩
    | subscribe h addr anon =>
      simp only [runActs] at he
      cases hs : subscribe c a h addr anon s with
      | error e => rw [hs] at he; simp at he
      | ok s1 =>
        rw [hs] at he
        obtain ⟨g1, g2⟩ := inv_subscribe c s s1 a h addr anon hi hs
        obtain ⟨h1, h2⟩ := ih s1 s' g1 he
        exact ⟨h1, g2.trans h2⟩
    | unsubscribe h addr =>
      simp only [runActs] at he
      cases hs : unsubscribe c a h addr s with
      | error e => rw [hs] at he; simp at he
      | ok s1 =>
        rw [hs] at he
        obtain ⟨g1, g2⟩ := inv_unsubscribe c s s1 a h addr hi hs
        obtain ⟨h1, h2⟩ := ih s1 s' g1 he
        exact ⟨h1, g2.trans h2⟩

theorem runActs_nofault (c : Cfg) (a : Nat) : ∀ (l : List Act) (s : State), runActs c a l s ≠ .error .fault := by
  intro l
  induction l with
  | nil => intro s; simp [runActs]
  | cons x l ih =>
    intro s
    cases x with
    | send dest ty => simp only [runActs]; exact ih _
    | subscribe h addr anon =>
      simp only [runActs, subscribe]
      by_cases hc : h.actor ≠ a ∨ (s.points.find (h, addr)).isSome
      · rw [if_pos hc]; simp
      · rw [if_neg hc]
        by_cases hl : c.locD addr = c.locA a
        · rw [if_pos hl]; exact ih _
        · rw [if_neg hl]; exact ih _
    | unsubscribe h addr =>
      simp only [runActs, unsubscribe]
      by_cases hc : h.actor ≠ a
      · rw [if_pos hc]; simp
      · rw [if_neg hc]
        cases s.points.find (h, addr) with
        | none =>
          simp only
          by_cases hk : (h, addr) ∈ s.listed.map (·.1)
          · rw [if_pos hk]; exact ih _
          · rw [if_neg hk]; simp
        | some p =>
          simp only
          by_cases hp : p.leaving = true
          · rw [if_pos hp]; exact ih _
          · rw [if_neg hp]; exact ih _

/-- the handlers of the list have not seen the message yet -/
def Ready (c : Cfg) (s : State) (o : Orig) (hs : List Handler) : Prop :=
  ∀ h ∈ hs, ∀ l, o.src.map c.locA = some l → (pend c s h l o.dest ++ [o.uid]).Sublist (tookU c l o.dest s.log)

theorem Ready.same {c : Cfg} {s s' : State} {o : Orig} {hs : List Handler} (h : Ready c s o hs) (hsm : Same c s s') : Ready c s' o hs := by
  intro hd hm l hl
  rw [hsm.1, hsm.2]; exact h hd hm l hl

theorem Ready.tail {c : Cfg} {s : State} {o : Orig} {h : Handler} {hs : List Handler} (hr : Ready c s o (h :: hs)) : Ready c s o hs :=
  fun hd hm => hr hd (List.mem_cons_of_mem _ hm)

/-- `handler->call` of a handler of this locality -/
theorem inv_callHandler (c : Cfg) (env : Env) (l : Nat) (h : Handler) (o : Orig) (s s' : State) (hi : Inv c { s with log := .exec l h o :: s.log })
    (he : callHandler c env l h o s = .ok s') : Inv c s' ∧ Same c { s with log := .exec l h o :: s.log } s' :=
  inv_runActs c h.actor _ _ s' hi he

/-- what is different after a handler has been called -/
theorem pend_exec (c : Cfg) (s : State) (k : Nat) (h hd : Handler) (o : Orig) (l d : Nat) (hne : hd ≠ h) :
    pend c { s with log := .exec k h o :: s.log } hd l d = pend c s hd l d := by
  simp only [pend, execU_exec]
  rw [if_neg (fun hh => hne hh.1.symm)]; simp

theorem inv_execInternal (c : Cfg) (s : State) (h : Handler) (o : Orig) (hi : Inv c s) (hloc : c.locD o.dest = c.locA h.actor)
    (hr : Ready c s o [h]) : Inv c { s with log := .exec (c.locA h.actor) h o :: s.log } := by
  refine ⟨invQ_exec c s _ h o hi.Q, ⟨?_, hi.E.placeQ, hi.E.placeI, ?_⟩, hi.T.of rfl rfl rfl, hi.P.of rfl rfl rfl rfl⟩
  · intro hd l d
    simp only [tookU_exec]
    by_cases hc : h = hd ∧ o.src.map c.locA = some l ∧ o.dest = d
    · obtain ⟨rfl, h2, rfl⟩ := hc
      have hr' := hr h (by simp) l h2
      have e1 : callU c h l o.dest (s.queue (c.locA h.actor)) = [] := by
        apply callU_nil_of
        intro m hm h' o' hb hh
        subst hh
        have := (hi.E.placeQ _ m h' o' hm hb).2.1
        intro he; rw [he] at this; exact this hloc
      have e2 : callU c h l o.dest (s.inb (c.locA h.actor)) = [] := by
        apply callU_nil_of
        intro m hm h' o' hb hh
        subst hh
        have := (hi.E.placeI _ m h' o' hm hb).2.1
        intro he; rw [he] at this; exact this hloc
      simp only [pend, execU_exec, e1, e2, List.append_nil] at hr' ⊢
      rw [if_pos (by simp [h2])]; exact hr'
    · have : pend c { s with log := .exec (c.locA h.actor) h o :: s.log } hd l d = pend c s hd l d := by
        simp only [pend, execU_exec]
        rw [if_neg hc]; simp
      rw [this]; exact hi.E.sub hd l d
  · intro l hd o' hm
    simp only [List.mem_cons, Ev.exec.injEq] at hm
    rcases hm with ⟨rfl, rfl, rfl⟩ | hm
    · rfl
    · exact hi.E.loc l hd o' hm

theorem inv_callAll (c : Cfg) (env : Env) (l : Nat) (o : Orig) (j : Joint) : ∀ (hs : List Handler) (s s' : State), Inv c s → hs.Nodup →
    (∀ h ∈ hs, c.locA h.actor = l ∧ c.locD o.dest = l) → Ready c s o hs → callAll c env l o j hs s = .ok s' → Inv c s' := by
  intro hs
  induction hs with
  | nil => intro s s' hi _ _ _ he; simp only [callAll, Except.ok.injEq] at he; subst he; exact hi
  | cons h hs ih =>
    intro s s' hi hn hloc hr he
    simp only [callAll] at he
    cases hc : callHandler c env l h o s with
    | error e => rw [hc] at he; simp at he
    | ok s1 =>
      rw [hc] at he
      simp only at he
      by_cases hj : s1.subs o.dest o.ty = j
      · rw [if_pos hj] at he
        obtain ⟨hl, hd⟩ := hloc h (by simp)
        have hx := inv_execInternal c s h o hi (by rw [hd, hl]) (fun hh hm => hr hh (by simp only [List.mem_singleton] at hm; simp [hm]))
        rw [hl] at hx
        obtain ⟨g1, g2⟩ := inv_callHandler c env l h o s s1 hx hc
        refine ih s1 s' g1 (List.nodup_cons.1 hn).2 (fun hh hm => hloc hh (by simp [hm])) ?_ he
        refine Ready.same ?_ g2
        intro hh hm k hk
        rw [pend_exec c s l h hh o k o.dest (by rintro rfl; exact (List.nodup_cons.1 hn).1 hm)]
        simp only [tookU_exec]
        exact hr hh (by simp [hm]) k hk
      · rw [if_neg hj] at he; simp at he

theorem callAll_nofault (c : Cfg) (env : Env) (l : Nat) (o : Orig) (j : Joint) : ∀ (hs : List Handler) (s : State),
    callAll c env l o j hs s ≠ .error .fault := by
  intro hs
  induction hs with
  | nil => intro s; simp [callAll]
  | cons h hs ih =>
    intro s
    simp only [callAll]
    have := runActs_nofault c h.actor (env (.exec l h o :: s.log)) { s with log := .exec l h o :: s.log }
    simp only [callHandler]
    revert this
    cases runActs c h.actor (env (.exec l h o :: s.log)) { s with log := .exec l h o :: s.log } with
    | error e => intro h1 h2; exact h1 h2
    | ok s1 =>
      intro _
      simp only
      by_cases hj : s1.subs o.dest o.ty = j
      · rw [if_pos hj]; exact ih s1
      · rw [if_neg hj]; simp

/-- wrapping for one foreign handler -/
theorem inv_wrap (c : Cfg) (s : State) (h : Handler) (o : Orig) (hi : Inv c s) (hloc : c.locD o.dest ≠ c.locA h.actor) (hr : Ready c s o [h]) :
    let s' := enqueue (c.locA h.actor) ⟨s.next, none, c.supAddr (c.locA h.actor), .call h o⟩ { s with next := s.next + 1 }
    Inv c s' ∧ (∀ hd, hd ≠ h → ∀ l d, pend c s' hd l d = pend c s hd l d) ∧ s'.log = s.log ∧ s'.subs = s.subs := by
  intro s'
  have hcm : ∀ hd l d, callU c hd l d [⟨s.next, none, c.supAddr (c.locA h.actor), .call h o⟩] =
      if h = hd ∧ o.src.map c.locA = some l ∧ o.dest = d then [o.uid] else [] := by
    intro hd l d
    simp only [callU, List.filterMap_cons, List.filterMap_nil]
    by_cases hc : h = hd ∧ o.src.map c.locA = some l ∧ o.dest = d
    · simp only [if_pos hc]
    · simp only [if_neg hc]
  have hp : ∀ hd l d, pend c s' hd l d = pend c s hd l d ++ if h = hd ∧ o.src.map c.locA = some l ∧ o.dest = d then [o.uid] else [] := by
    intro hd l d
    simp only [pend, s', enqueue]
    by_cases e : c.locA hd.actor = c.locA h.actor
    · rw [e, upd_self, callU_append, hcm]; simp only [List.append_assoc]
    · rw [upd_ne _ _ _ _ e, if_neg]
      · simp
      · rintro ⟨rfl, _⟩; exact e rfl
  refine ⟨⟨?_, ⟨?_, hi.E.placeQ, ?_, hi.E.loc⟩, hi.T.of rfl rfl rfl, ?_⟩, ?_, rfl, rfl⟩
  · have := invQ_enqueue c { s with next := s.next + 1 } ⟨s.next, none, c.supAddr (c.locA h.actor), .call h o⟩ (hi.Q.of rfl rfl rfl (Nat.le_succ _)) rfl
    simp only [c.hSup] at this
    exact this
  · intro hd l d
    rw [hp]
    by_cases hc : h = hd ∧ o.src.map c.locA = some l ∧ o.dest = d
    · rw [if_pos hc]
      obtain ⟨rfl, h2, rfl⟩ := hc
      exact hr h (by simp) l h2
    · rw [if_neg hc, List.append_nil]; exact hi.E.sub hd l d
  · intro l m hd o' hm hb
    by_cases e : l = c.locA h.actor
    · subst e
      simp only [s', enqueue, upd_self, List.mem_append, List.mem_singleton] at hm
      rcases hm with hm | rfl
      · exact hi.E.placeI _ _ _ _ hm hb
      · simp only [Body.call.injEq] at hb
        obtain ⟨rfl, rfl⟩ := hb
        exact ⟨rfl, hloc, c.hSup _⟩
    · simp only [s', enqueue, upd_ne _ _ _ _ e] at hm
      exact hi.E.placeI _ _ _ _ hm hb
  · apply invP_enqueue
    · exact hi.P.of rfl rfl rfl rfl
    · intro hd addr; rfl
    · rintro hd addr (h1 | h1) <;> simp at h1
    · simp
  · intro hd hne l d
    rw [hp, if_neg (fun hh => hne hh.1.symm)]; simp

theorem inv_wrapAll (c : Cfg) (o : Orig) : ∀ (hs : List Handler) (s : State), Inv c s → hs.Nodup →
    (∀ h ∈ hs, c.locD o.dest ≠ c.locA h.actor) → Ready c s o hs →
    Inv c (wrapAll c o hs s) ∧ (∀ hd, hd ∉ hs → ∀ l d, pend c (wrapAll c o hs s) hd l d = pend c s hd l d) ∧
      (wrapAll c o hs s).log = s.log ∧ (wrapAll c o hs s).subs = s.subs := by
  intro hs
  induction hs with
  | nil => intro s hi _ _ _; exact ⟨hi, fun _ _ _ _ => rfl, rfl, rfl⟩
  | cons h hs ih =>
    intro s hi hn hloc hr
    obtain ⟨g1, g2, g3, g4⟩ := inv_wrap c s h o hi (hloc h (by simp)) (fun hh hm => hr hh (by simp only [List.mem_singleton] at hm; simp [hm]))
    obtain ⟨k1, k2, k3, k4⟩ := ih _ g1 (List.nodup_cons.1 hn).2 (fun hh hm => hloc hh (by simp [hm])) (by
      intro hh hm l hl
      rw [g2 hh (by rintro rfl; exact (List.nodup_cons.1 hn).1 hm), g3]
      exact hr hh (by simp [hm]) l hl)
    refine ⟨k1, ?_, k3.trans g3, k4.trans g4⟩
    intro hd hm l d
    simp only [List.mem_cons, not_or] at hm
    rw [wrapAll, k2 hd hm.2, g2 hd hm.1]

end Verif.Net
