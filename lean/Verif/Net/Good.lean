import Verif.Net.Steps

/-!
# The protocol steps, all steps, all runs
-/

namespace Verif.Net
open Verif

/-- `InvP` after the pop of a protocol message or an unsubscription, before it is handled: everything
except what is said about the subscription of the message -/
structure InvPx (c : Cfg) (s : State) (h0 : Handler) (a0 : Nat) : Prop where
  chain : ∀ h addr, ¬ (h = h0 ∧ addr = a0) → c.locD addr ≠ c.locA h.actor →
    Chain (decide ((h, addr) ∈ s.foreign)) (pipe c s h addr) (s.points.find (h, addr)).isSome
  srcQ : ∀ l m h addr, m ∈ s.queue l → isProto m h addr → c.locD addr ≠ c.locA h.actor ∧ m.dest = c.supAddr (c.locD addr)
  srcI : ∀ l m h addr, m ∈ s.inb l → isProto m h addr → c.locD addr ≠ c.locA h.actor ∧ m.dest = c.supAddr (c.locD addr)
  own : ∀ l m h addr, m ∈ s.queue l ∨ m ∈ s.inb l → isProto m h addr → m.src = some h.actor
  leave : ∀ h addr p, ¬ (h = h0 ∧ addr = a0) → s.points.find (h, addr) = some p →
    (s.queue (c.locA h.actor)).countP (isUnsub h addr) = if p.leaving then 1 else 0
  leaveN : ∀ h addr, ¬ (h = h0 ∧ addr = a0) → s.points.find (h, addr) = none → (s.queue (c.locA h.actor)).countP (isUnsub h addr) = 0
  unQ : ∀ l m h addr, m ∈ s.queue l → m.body = .unsub h addr → l = c.locA h.actor ∧ c.locD m.dest = l
  unI : ∀ l m h addr, m ∈ s.inb l → m.body ≠ .unsub h addr

theorem invPx_pop (c : Cfg) (s : State) (l : Nat) (m : Msg) (rest : List Msg) (h : InvP c s) (hq : s.queue l = m :: rest)
    (hl : c.locD m.dest = l) (h0 : Handler) (a0 : Nat) (h1 : ∀ h addr, ¬ (h = h0 ∧ addr = a0) → protoOp h addr m = none)
    (h2 : ∀ h addr, ¬ (h = h0 ∧ addr = a0) → isUnsub h addr m = false) : InvPx c (popped l m rest s) h0 a0 := by
  refine ⟨?_, ?_, h.srcI, ?_, ?_, ?_, ?_, h.unI⟩
  · intro hd addr hne hx
    have := h.chain hd addr hx
    rw [pipe_popLocal c s l m rest h hq hl hd addr hx, h1 hd addr hne] at this
    exact this
  · intro k m' hd addr hm hp; exact h.srcQ k m' hd addr (mem_popped hq hm) hp
  · intro k m' hd addr hm hp
    refine h.own k m' hd addr ?_ hp
    rcases hm with hm | hm
    · exact .inl (mem_popped hq hm)
    · exact .inr hm
  · intro hd addr p hne hp
    have := unsub_pop c s l m rest h hq hd addr
    rw [h.leave hd addr p hp, h2 hd addr hne] at this
    simpa [popped] using this.symm
  · intro hd addr hne hp
    have := unsub_pop c s l m rest h hq hd addr
    rw [h.leaveN hd addr hp, h2 hd addr hne] at this
    simp only [popped]; simp at this; omega
  · intro k m' hd addr hm hp; exact h.unQ k m' hd addr (mem_popped hq hm) hp

/-- completing `InvPx` -/
theorem InvPx.close {c : Cfg} {s : State} {h0 : Handler} {a0 : Nat} (h : InvPx c s h0 a0)
    (hc : c.locD a0 ≠ c.locA h0.actor → Chain (decide ((h0, a0) ∈ s.foreign)) (pipe c s h0 a0) (s.points.find (h0, a0)).isSome)
    (hl : ∀ p, s.points.find (h0, a0) = some p → (s.queue (c.locA h0.actor)).countP (isUnsub h0 a0) = if p.leaving then 1 else 0)
    (hn : s.points.find (h0, a0) = none → (s.queue (c.locA h0.actor)).countP (isUnsub h0 a0) = 0) : InvP c s := by
  refine ⟨?_, h.srcQ, h.srcI, h.own, ?_, ?_, h.unQ, h.unI⟩
  · intro hd addr hx
    by_cases e : hd = h0 ∧ addr = a0
    · obtain ⟨rfl, rfl⟩ := e; exact hc hx
    · exact h.chain hd addr e hx
  · intro hd addr p hp
    by_cases e : hd = h0 ∧ addr = a0
    · obtain ⟨rfl, rfl⟩ := e; exact hl p hp
    · exact h.leave hd addr p e hp
  · intro hd addr hp
    by_cases e : hd = h0 ∧ addr = a0
    · obtain ⟨rfl, rfl⟩ := e; exact hn hp
    · exact h.leaveN hd addr e hp

/-! ## the handler of `external_subscription_t` -/

theorem good_onExtSub (c : Cfg) (s : State) (l : Nat) (m : Msg) (rest : List Msg) (h : Handler) (addr : Nat) (hi : Inv c s)
    (hq : s.queue l = m :: rest) (hl : c.locD m.dest = l) (hb : m.body = .extSub h addr) :
    ∃ s', onExtSub c l h addr (popped l m rest s) = .ok s' ∧ Inv c s' := by
  have hpr : isProto m h addr := .inl hb
  have hmem : m ∈ s.queue l := by rw [hq]; simp
  obtain ⟨hx, hdest⟩ := hi.P.srcQ l m h addr hmem hpr
  have hld : c.locD addr = l := by rw [hdest, c.hSup] at hl; exact hl
  have hop : protoOp h addr m = some true := by simp [protoOp, hb]
  have hch := hi.P.chain h addr hx
  rw [pipe_popLocal c s l m rest hi.P hq hl h addr hx, hop] at hch
  simp only [Option.toList_some, List.cons_append, List.nil_append, Chain] at hch
  have hnf : (h, addr) ∉ s.foreign := by
    intro hf; rw [decide_eq_true hf] at hch; exact hch.1 rfl
  have hne : h ∉ (s.subs addr h.ty).ext := fun hm => hnf (hi.T.extTy h addr _ hm).2
  refine ⟨_, by rw [onExtSub, if_neg (by simpa using hld)], ?_⟩
  have hpx := invPx_pop c s l m rest hi.P hq hl h addr
    (by intro hd ad hne; simp only [protoOp, hb]; rw [if_neg]; rintro ⟨rfl, rfl⟩; exact hne ⟨rfl, rfl⟩)
    (by intro hd ad _; simp [isUnsub, hb])
  have hun : isUnsub h addr m = false := by simp [isUnsub, hb]
  have hcnt := unsub_pop c s l m rest hi.P hq h addr
  rw [hun] at hcnt
  have hP1 : InvP c { popped l m rest s with foreign := s.foreign ++ [(h, addr)] } := by
    refine InvPx.close (h0 := h) (a0 := addr) ⟨?_, hpx.srcQ, hpx.srcI, hpx.own, hpx.leave, hpx.leaveN, hpx.unQ, hpx.unI⟩ ?_ ?_ ?_
    · intro hd ad hne' hx'
      have := hpx.chain hd ad hne' hx'
      have e : decide ((hd, ad) ∈ s.foreign ++ [(h, addr)]) = decide ((hd, ad) ∈ s.foreign) := by
        congr 1
        simp only [List.mem_append, List.mem_singleton, Prod.mk.injEq, eq_iff_iff]
        exact ⟨fun hh => hh.elim id (fun h' => absurd h' hne'), .inl⟩
      simp only [e]; exact this
    · intro _
      have e : decide ((h, addr) ∈ s.foreign ++ [(h, addr)]) = true := by simp
      simp only [e]; exact hch.2
    · intro p hp
      have := hi.P.leave h addr p hp
      simp only [popped] at hcnt ⊢
      rw [this] at hcnt; simpa using hcnt.symm
    · intro hp
      have := hi.P.leaveN h addr hp
      simp only [popped] at hcnt ⊢
      rw [this] at hcnt; simp at hcnt; omega
  refine ⟨?_, ?_, ?_, ?_⟩
  · refine InvQ.of (s := send c (c.supActor l) (c.addrOf h.actor) (.confirm h addr) (popped l m rest s)) ?_ rfl rfl rfl (Nat.le_refl _)
    exact invQ_send _ _ _ _ _ (invQ_popLocal c s l m rest hi.Q hq hl)
  · refine InvE.of (s := send c (c.supActor l) (c.addrOf h.actor) (.confirm h addr) (popped l m rest s)) ?_ rfl rfl rfl
    exact invE_send _ _ _ _ _ (by simp) (invE_popOther c s l m rest hi.E hq (by simp [hb])).1
  · refine InvT.of (s := { setSubs s addr h.ty { (s.subs addr h.ty) with ext := (s.subs addr h.ty).ext ++ [h] } with foreign := s.foreign ++ [(h, addr)] }) ?_ rfl rfl rfl
    refine ⟨?_, ?_, ?_, ?_, ?_, ?_, ?_⟩
    · intro hd ad hx'
      simp only [setSubs]
      by_cases e : ad = addr ∧ hd.ty = h.ty
      · rw [if_pos e]; obtain ⟨rfl, e2⟩ := e; rw [← e2]; exact hi.T.intIff hd ad hx'
      · rw [if_neg e]; exact hi.T.intIff hd ad hx'
    · intro hd ad ty hm
      simp only [setSubs] at hm
      by_cases e : ad = addr ∧ ty = h.ty
      · rw [if_pos e] at hm; obtain ⟨rfl, rfl⟩ := e; exact hi.T.intTy hd ad _ hm
      · rw [if_neg e] at hm; exact hi.T.intTy hd ad ty hm
    · intro hd ad ty hm
      simp only [setSubs] at hm
      by_cases e : ad = addr ∧ ty = h.ty
      · rw [if_pos e] at hm; obtain ⟨rfl, rfl⟩ := e
        simp only [List.mem_append, List.mem_singleton] at hm
        rcases hm with hm | rfl
        · obtain ⟨h1, h2⟩ := hi.T.extTy hd ad _ hm
          exact ⟨h1, by simp [h2]⟩
        · exact ⟨rfl, by simp⟩
      · rw [if_neg e] at hm
        obtain ⟨h1, h2⟩ := hi.T.extTy hd ad ty hm
        exact ⟨h1, by simp [h2]⟩
    · intro hd ad hm
      simp only [List.mem_append, List.mem_singleton, Prod.mk.injEq] at hm
      rcases hm with hm | ⟨rfl, rfl⟩
      · obtain ⟨h1, h2⟩ := hi.T.extIff hd ad hm
        refine ⟨?_, h2⟩
        simp only [setSubs]
        by_cases e : ad = addr ∧ hd.ty = h.ty
        · rw [if_pos e]; obtain ⟨rfl, e2⟩ := e; rw [← e2]; simp [h1]
        · rw [if_neg e]; exact h1
      · exact ⟨by simp [setSubs], hx⟩
    · intro ad ty
      simp only [setSubs]
      by_cases e : ad = addr ∧ ty = h.ty
      · rw [if_pos e]; exact hi.T.intN _ _
      · rw [if_neg e]; exact hi.T.intN ad ty
    · intro ad ty
      simp only [setSubs]
      by_cases e : ad = addr ∧ ty = h.ty
      · rw [if_pos e, List.nodup_append]
        refine ⟨hi.T.extN _ _, by simp, ?_⟩
        intro x hx y hy
        simp only [List.mem_singleton] at hy
        subst hy; rintro rfl; exact hne hx
      · rw [if_neg e]; exact hi.T.extN ad ty
    · simp only
      rw [List.nodup_append]
      refine ⟨hi.T.forN, by simp, ?_⟩
      intro x hx y hy
      simp only [List.mem_singleton] at hy
      subst hy; rintro rfl; exact hnf hx
  · refine InvP.of (s := send c (c.supActor l) (c.addrOf h.actor) (.confirm h addr) { popped l m rest s with foreign := s.foreign ++ [(h, addr)] }) ?_ rfl rfl rfl rfl
    exact invP_send _ _ _ _ _ hP1 (by simp)

/-! ## the handler of `commit_unsubscription_t` -/

theorem good_onCommit (c : Cfg) (s : State) (l : Nat) (m : Msg) (rest : List Msg) (h : Handler) (addr : Nat) (hi : Inv c s)
    (hq : s.queue l = m :: rest) (hl : c.locD m.dest = l) (hb : m.body = .commit h addr) :
    ∃ s', onCommit h addr (popped l m rest s) = .ok s' ∧ Inv c s' := by
  have hpr : isProto m h addr := .inr hb
  have hmem : m ∈ s.queue l := by rw [hq]; simp
  obtain ⟨hx, hdest⟩ := hi.P.srcQ l m h addr hmem hpr
  have hop : protoOp h addr m = some false := by simp [protoOp, hb]
  have hch := hi.P.chain h addr hx
  rw [pipe_popLocal c s l m rest hi.P hq hl h addr hx, hop] at hch
  simp only [Option.toList_some, List.cons_append, List.nil_append, Chain] at hch
  have hf : (h, addr) ∈ s.foreign := by
    by_cases hf : (h, addr) ∈ s.foreign
    · exact hf
    · rw [decide_eq_false hf] at hch; exact absurd rfl hch.1
  obtain ⟨he, _⟩ := hi.T.extIff h addr hf
  have hnf : (h, addr) ∉ s.foreign.erase (h, addr) := by
    rw [List.Nodup.mem_erase_iff hi.T.forN]; simp
  refine ⟨_, by
    rw [onCommit, if_pos (show (h, addr) ∈ (popped l m rest s).foreign from hf)]
    simp only
    rw [if_pos (show h ∈ ((popped l m rest s).subs addr h.ty).ext from he)], ?_⟩
  have hpx := invPx_pop c s l m rest hi.P hq hl h addr
    (by intro hd ad hne; simp only [protoOp, hb]; rw [if_neg]; rintro ⟨rfl, rfl⟩; exact hne ⟨rfl, rfl⟩)
    (by intro hd ad _; simp [isUnsub, hb])
  have hun : isUnsub h addr m = false := by simp [isUnsub, hb]
  have hcnt := unsub_pop c s l m rest hi.P hq h addr
  rw [hun] at hcnt
  have hP1 : InvP c { popped l m rest s with foreign := s.foreign.erase (h, addr) } := by
    refine InvPx.close (h0 := h) (a0 := addr) ⟨?_, hpx.srcQ, hpx.srcI, hpx.own, hpx.leave, hpx.leaveN, hpx.unQ, hpx.unI⟩ ?_ ?_ ?_
    · intro hd ad hne' hx'
      have := hpx.chain hd ad hne' hx'
      have e : decide ((hd, ad) ∈ s.foreign.erase (h, addr)) = decide ((hd, ad) ∈ s.foreign) := by
        congr 1
        rw [List.Nodup.mem_erase_iff hi.T.forN]
        simp only [Prod.mk.injEq, ne_eq, eq_iff_iff]
        exact ⟨fun hh => hh.2, fun hh => ⟨hne', hh⟩⟩
      simp only [e]; exact this
    · intro _
      simp only [decide_eq_false hnf]; exact hch.2
    · intro p hp
      have := hi.P.leave h addr p hp
      simp only [popped] at hcnt ⊢
      rw [this] at hcnt; simpa using hcnt.symm
    · intro hp
      have := hi.P.leaveN h addr hp
      simp only [popped] at hcnt ⊢
      rw [this] at hcnt; simp at hcnt; omega
  refine ⟨?_, ?_, ?_, ?_⟩
  · exact (invQ_popLocal c s l m rest hi.Q hq hl).of rfl rfl rfl (Nat.le_refl _)
  · exact (invE_popOther c s l m rest hi.E hq (by simp [hb])).1.of rfl rfl rfl
  · refine InvT.of (s := { setSubs s addr h.ty { (s.subs addr h.ty) with ext := (s.subs addr h.ty).ext.erase h } with foreign := s.foreign.erase (h, addr) }) ?_ rfl rfl rfl
    refine ⟨?_, ?_, ?_, ?_, ?_, ?_, hi.T.forN.erase _⟩
    · intro hd ad hx'
      simp only [setSubs]
      by_cases e : ad = addr ∧ hd.ty = h.ty
      · rw [if_pos e]; obtain ⟨rfl, e2⟩ := e; rw [← e2]; exact hi.T.intIff hd ad hx'
      · rw [if_neg e]; exact hi.T.intIff hd ad hx'
    · intro hd ad ty hm
      simp only [setSubs] at hm
      by_cases e : ad = addr ∧ ty = h.ty
      · rw [if_pos e] at hm; obtain ⟨rfl, rfl⟩ := e; exact hi.T.intTy hd ad _ hm
      · rw [if_neg e] at hm; exact hi.T.intTy hd ad ty hm
    · intro hd ad ty hm
      simp only [setSubs] at hm
      rw [List.Nodup.mem_erase_iff hi.T.forN]
      by_cases e : ad = addr ∧ ty = h.ty
      · rw [if_pos e] at hm; obtain ⟨rfl, rfl⟩ := e
        simp only [List.Nodup.mem_erase_iff (hi.T.extN _ _)] at hm
        obtain ⟨h1, h2⟩ := hi.T.extTy hd ad _ hm.2
        exact ⟨h1, by simp [hm.1], h2⟩
      · rw [if_neg e] at hm
        obtain ⟨h1, h2⟩ := hi.T.extTy hd ad ty hm
        refine ⟨h1, ?_, h2⟩
        simp only [ne_eq, Prod.mk.injEq]
        rintro ⟨rfl, rfl⟩; exact e ⟨rfl, h1.symm⟩
    · intro hd ad hm
      simp only at hm
      rw [List.Nodup.mem_erase_iff hi.T.forN] at hm
      obtain ⟨h1, h2⟩ := hi.T.extIff hd ad hm.2
      refine ⟨?_, h2⟩
      simp only [setSubs]
      by_cases e : ad = addr ∧ hd.ty = h.ty
      · rw [if_pos e]; obtain ⟨rfl, e2⟩ := e
        simp only
        rw [List.Nodup.mem_erase_iff (hi.T.extN _ _)]
        refine ⟨?_, by rw [← e2]; exact h1⟩
        rintro rfl; exact hm.1 rfl
      · rw [if_neg e]; exact h1
    · intro ad ty
      simp only [setSubs]
      by_cases e : ad = addr ∧ ty = h.ty
      · rw [if_pos e]; exact hi.T.intN _ _
      · rw [if_neg e]; exact hi.T.intN ad ty
    · intro ad ty
      simp only [setSubs]
      by_cases e : ad = addr ∧ ty = h.ty
      · rw [if_pos e]; exact (hi.T.extN _ _).erase _
      · rw [if_neg e]; exact hi.T.extN ad ty
  · exact hP1.of rfl rfl rfl rfl

/-! ## the handler of an unsubscription -/

theorem find_erase_points {s : State} {h hd : Handler} {addr ad : Nat} (hne : ¬ (hd = h ∧ ad = addr)) :
    (s.points.erase (h, addr)).find (hd, ad) = s.points.find (hd, ad) := by
  rw [AMap.find_erase_ne]
  intro he
  simp only [Prod.mk.injEq] at he
  exact hne he

theorem invP_commit (c : Cfg) (s : State) (h : Handler) (addr : Nat) (hx : c.locD addr ≠ c.locA h.actor) (hpx : InvPx c s h addr)
    (hz : (s.queue (c.locA h.actor)).countP (isUnsub h addr) = 0) (hn : s.points.find (h, addr) = none)
    (hch : Chain (decide ((h, addr) ∈ s.foreign)) (pipe c s h addr) true) :
    InvP c (send c h.actor (c.supAddr (c.locD addr)) (.commit h addr) s) := by
  have hcnt' : ∀ hd ad, ((send c h.actor (c.supAddr (c.locD addr)) (.commit h addr) s).queue (c.locA hd.actor)).countP (isUnsub hd ad) =
      (s.queue (c.locA hd.actor)).countP (isUnsub hd ad) := by
    intro hd ad
    simp only [send]
    by_cases e : c.locA hd.actor = c.locA h.actor
    · rw [e, upd_self, List.countP_append]; simp [isUnsub]
    · rw [upd_ne _ _ _ _ e]
  refine InvPx.close (h0 := h) (a0 := addr) ⟨?_, ?_, hpx.srcI, ?_, ?_, ?_, ?_, hpx.unI⟩ ?_ ?_ ?_
  · intro hd ad hne hx'
    have ho : protoOp hd ad ⟨s.next, some h.actor, c.supAddr (c.locD addr), .commit h addr⟩ = none := by
      simp only [protoOp]; rw [if_neg]; rintro ⟨rfl, rfl⟩; exact hne ⟨rfl, rfl⟩
    rw [pipe_send c s h.actor (c.supAddr (c.locD addr)) (.commit h addr) hd ad hx' (.inl ho), ho]
    simp only [Option.toList_none, List.append_nil]
    exact hpx.chain hd ad hne hx'
  · intro k m' hd ad hm hp
    rcases mem_send hm with hm | ⟨rfl, _⟩
    · exact hpx.srcQ k m' hd ad hm hp
    · simp only [isProto, Body.commit.injEq, reduceCtorEq, false_or] at hp
      obtain ⟨rfl, rfl⟩ := hp
      exact ⟨hx, rfl⟩
  · intro k m' hd ad hm hp
    rcases hm with hm | hm
    · rcases mem_send hm with hm | ⟨rfl, _⟩
      · exact hpx.own k m' hd ad (.inl hm) hp
      · simp only [isProto, Body.commit.injEq, reduceCtorEq, false_or] at hp
        obtain ⟨rfl, rfl⟩ := hp; rfl
    · exact hpx.own k m' hd ad (.inr hm) hp
  · intro hd ad q hne hp
    rw [hcnt']; exact hpx.leave hd ad q hne hp
  · intro hd ad hne hp
    rw [hcnt']; exact hpx.leaveN hd ad hne hp
  · intro k m' hd ad hm hp
    rcases mem_send hm with hm | ⟨rfl, _⟩
    · exact hpx.unQ k m' hd ad hm hp
    · simp at hp
  · intro hx'
    have ho : protoOp h addr ⟨s.next, some h.actor, c.supAddr (c.locD addr), .commit h addr⟩ = some false := by simp [protoOp]
    rw [pipe_send c s h.actor (c.supAddr (c.locD addr)) (.commit h addr) h addr hx' (.inr rfl), ho,
      show (send c h.actor (c.supAddr (c.locD addr)) (.commit h addr) s).points.find (h, addr) = none from hn]
    exact chain_append false _ _ _ _ hch (by simp) rfl
  · intro q hq'
    rw [show (send c h.actor (c.supAddr (c.locD addr)) (.commit h addr) s).points.find (h, addr) = none from hn] at hq'
    simp at hq'
  · intro _; rw [hcnt']; exact hz

theorem good_onUnsub (c : Cfg) (s : State) (l : Nat) (m : Msg) (rest : List Msg) (h : Handler) (addr : Nat) (hi : Inv c s)
    (hq : s.queue l = m :: rest) (hl : c.locD m.dest = l) (hb : m.body = .unsub h addr) :
    (∃ p, s.points.find (h, addr) = some p ∧ p.anon = true ∧ c.locD addr ≠ c.locA h.actor ∧ onUnsub c h addr (popped l m rest s) = .error .anon) ∨
    ∃ s', onUnsub c h addr (popped l m rest s) = .ok s' ∧ Inv c s' := by
  have hmem : m ∈ s.queue l := by rw [hq]; simp
  obtain ⟨hla, _⟩ := hi.P.unQ l m h addr hmem hb
  have hun : isUnsub h addr m = true := by simp [isUnsub, hb]
  have hcnt := unsub_pop c s l m rest hi.P hq h addr
  rw [if_pos hun] at hcnt
  have hz : ((popped l m rest s).queue (c.locA h.actor)).countP (isUnsub h addr) = 0 := by
    simp only [popped]
    cases hf : s.points.find (h, addr) with
    | none => have := hi.P.leaveN h addr hf; omega
    | some p => have := hi.P.leave h addr p hf; split at this <;> omega
  cases hf : s.points.find (h, addr) with
  | none => have := hi.P.leaveN h addr hf; omega
  | some p =>
    have hpx := invPx_pop c s l m rest hi.P hq hl h addr
      (by intro hd ad _; simp [protoOp, hb])
      (by intro hd ad hne; simp only [isUnsub, hb, decide_eq_false_iff_not]; rintro ⟨rfl, rfl⟩; exact hne ⟨rfl, rfl⟩)
    have hpx1 : InvPx c { popped l m rest s with points := s.points.erase (h, addr), listed := if p.anon then s.listed.erase ((h, addr), true) else s.listed } h addr := by
      refine ⟨?_, hpx.srcQ, hpx.srcI, hpx.own, ?_, ?_, hpx.unQ, hpx.unI⟩
      · intro hd ad hne hx; simp only [find_erase_points hne]; exact hpx.chain hd ad hne hx
      · intro hd ad p hne hp; simp only [find_erase_points hne] at hp; exact hpx.leave hd ad p hne hp
      · intro hd ad hne hp; simp only [find_erase_points hne] at hp; exact hpx.leaveN hd ad hne hp
    have hf' : (popped l m rest s).points.find (h, addr) = some p := hf
    by_cases hx : c.locD addr = c.locA h.actor
    · right
      have hint : h ∈ (s.subs addr h.ty).int := by rw [hi.T.intIff h addr hx, hf]; rfl
      refine ⟨_, by
        rw [onUnsub, hf']; simp only
        rw [if_pos hx, if_pos (show h ∈ ((popped l m rest s).subs addr h.ty).int from hint)], ?_⟩
      refine ⟨?_, ?_, ?_, ?_⟩
      · exact (invQ_popLocal c s l m rest hi.Q hq hl).of rfl rfl rfl (Nat.le_refl _)
      · exact (invE_popOther c s l m rest hi.E hq (by simp [hb])).1.of rfl rfl rfl
      · refine InvT.of (s := setSubs { s with points := s.points.erase (h, addr), listed := if p.anon then s.listed.erase ((h, addr), true) else s.listed } addr h.ty { (s.subs addr h.ty) with int := (s.subs addr h.ty).int.erase h }) ?_ rfl rfl rfl
        refine ⟨?_, ?_, ?_, ?_, ?_, ?_, hi.T.forN⟩
        · intro hd ad hx'
          simp only [setSubs]
          by_cases e : ad = addr ∧ hd.ty = h.ty
          · rw [if_pos e]; obtain ⟨rfl, e2⟩ := e
            simp only
            rw [List.Nodup.mem_erase_iff (hi.T.intN _ _)]
            by_cases e3 : hd = h
            · subst e3; simp [AMap.find_erase_self]
            · rw [find_erase_points (fun hh => e3 hh.1), ← hi.T.intIff hd ad hx', e2]; simp [e3]
          · rw [if_neg e, find_erase_points (by rintro ⟨rfl, rfl⟩; exact e ⟨rfl, rfl⟩)]; exact hi.T.intIff hd ad hx'
        · intro hd ad ty hm
          simp only [setSubs] at hm
          by_cases e : ad = addr ∧ ty = h.ty
          · rw [if_pos e] at hm; obtain ⟨rfl, rfl⟩ := e
            exact hi.T.intTy hd ad _ (List.mem_of_mem_erase hm)
          · rw [if_neg e] at hm; exact hi.T.intTy hd ad ty hm
        · intro hd ad ty hm
          simp only [setSubs] at hm
          by_cases e : ad = addr ∧ ty = h.ty
          · rw [if_pos e] at hm; obtain ⟨rfl, rfl⟩ := e; exact hi.T.extTy hd ad _ hm
          · rw [if_neg e] at hm; exact hi.T.extTy hd ad ty hm
        · intro hd ad hm
          obtain ⟨h1, h2⟩ := hi.T.extIff hd ad hm
          refine ⟨?_, h2⟩
          simp only [setSubs]
          by_cases e : ad = addr ∧ hd.ty = h.ty
          · rw [if_pos e]; obtain ⟨rfl, e2⟩ := e; rw [← e2]; exact h1
          · rw [if_neg e]; exact h1
        · intro ad ty
          simp only [setSubs]
          by_cases e : ad = addr ∧ ty = h.ty
          · rw [if_pos e]; exact (hi.T.intN _ _).erase _
          · rw [if_neg e]; exact hi.T.intN ad ty
        · intro ad ty
          simp only [setSubs]
          by_cases e : ad = addr ∧ ty = h.ty
          · rw [if_pos e]; exact hi.T.extN _ _
          · rw [if_neg e]; exact hi.T.extN ad ty
      · refine InvP.of (s := { popped l m rest s with points := s.points.erase (h, addr), listed := if p.anon then s.listed.erase ((h, addr), true) else s.listed }) ?_ rfl rfl rfl rfl
        refine hpx1.close (fun hh => absurd hx hh) ?_ (fun _ => hz)
        intro q hq'; simp [AMap.find_erase_self] at hq'
    · by_cases ha : p.anon = true
      · left
        refine ⟨p, rfl, ha, hx, ?_⟩
        rw [onUnsub, hf']; simp only
        rw [if_neg hx, if_pos ha]
      · right
        refine ⟨_, by rw [onUnsub, hf']; simp only; rw [if_neg hx, if_neg ha], ?_⟩
        refine ⟨?_, ?_, ?_, ?_⟩
        · exact invQ_send _ _ _ _ _ ((invQ_popLocal c s l m rest hi.Q hq hl).of rfl rfl rfl (Nat.le_refl _))
        · exact invE_send _ _ _ _ _ (by simp) ((invE_popOther c s l m rest hi.E hq (by simp [hb])).1.of rfl rfl rfl)
        · refine InvT.of (s := { s with points := s.points.erase (h, addr), listed := if p.anon then s.listed.erase ((h, addr), true) else s.listed }) ?_ rfl rfl rfl
          refine ⟨?_, hi.T.intTy, hi.T.extTy, hi.T.extIff, hi.T.intN, hi.T.extN, hi.T.forN⟩
          intro hd ad hx'
          simp only
          rw [find_erase_points (by rintro ⟨rfl, rfl⟩; exact hx hx')]; exact hi.T.intIff hd ad hx'
        · have hch := hi.P.chain h addr hx
          rw [pipe_popLocal c s l m rest hi.P hq hl h addr hx, show protoOp h addr m = none by simp [protoOp, hb], hf] at hch
          exact invP_commit c _ h addr hx hpx1 hz (AMap.find_erase_self _ _) hch

/-! ## every step -/

/-- a step keeps the invariants or ends with an outcome other than `fault` -/
def Good (c : Cfg) (r : Except Err State) : Prop :=
  match r with
  | .ok s => Inv c s
  | .error e => e ≠ .fault

theorem good_runActs (c : Cfg) (a : Nat) (l : List Act) (s : State) (hi : Inv c s) : Good c (runActs c a l s) := by
  have h1 := inv_runActs c a l s
  have h2 := runActs_nofault c a l s
  cases hr : runActs c a l s with
  | ok s' => exact (h1 s' hi hr).1
  | error e => rintro rfl; exact h2 hr

theorem good_take (c : Cfg) (env : Env) (l : Nat) (s : State) (hi : Inv c s) : Good c (take c env l s) := by
  simp only [take]
  cases hq : s.queue l with
  | nil => exact hi
  | cons m rest =>
    simp only
    by_cases hl : c.locD m.dest = l
    · rw [if_neg (by simpa using hl)]
      cases hb : m.body with
      | user ty =>
        simp only
        have hpop := invE_popOther c s l m rest hi.E hq (by simp [hb])
        have hi1 : Inv c (popped l m rest s) :=
          ⟨invQ_popLocal c s l m rest hi.Q hq hl, hpop.1, hi.T.of rfl rfl rfl,
            invP_popLocal c s l m rest hi.P hq hl (by simp [protoOp, hb]) (by simp [isUnsub, hb])⟩
        have hrd : ∀ hs, Ready c (popped l m rest s) ⟨m.uid, m.src, m.dest, ty⟩ hs := by
          intro hs hd _ k hk
          exact hpop.2 hd k m.dest hk rfl hl
        obtain ⟨w1, w2, w3, w4⟩ := inv_wrapAll c ⟨m.uid, m.src, m.dest, ty⟩ (s.subs m.dest ty).ext (popped l m rest s) hi1
          (hi.T.extN _ _) (by
            intro h hm
            exact (hi.T.extIff h m.dest (hi.T.extTy h _ _ hm).2).2) (hrd _)
        have hn := callAll_nofault c env l ⟨m.uid, m.src, m.dest, ty⟩ (s.subs m.dest ty) (s.subs m.dest ty).int
          (wrapAll c ⟨m.uid, m.src, m.dest, ty⟩ (s.subs m.dest ty).ext (popped l m rest s))
        have hv := inv_callAll c env l ⟨m.uid, m.src, m.dest, ty⟩ (s.subs m.dest ty) (s.subs m.dest ty).int
          (wrapAll c ⟨m.uid, m.src, m.dest, ty⟩ (s.subs m.dest ty).ext (popped l m rest s))
        have key : Good c (callAll c env l ⟨m.uid, m.src, m.dest, ty⟩ (s.subs m.dest ty) (s.subs m.dest ty).int
          (wrapAll c ⟨m.uid, m.src, m.dest, ty⟩ (s.subs m.dest ty).ext (popped l m rest s))) := by
          cases hr : callAll c env l ⟨m.uid, m.src, m.dest, ty⟩ (s.subs m.dest ty) (s.subs m.dest ty).int
            (wrapAll c ⟨m.uid, m.src, m.dest, ty⟩ (s.subs m.dest ty).ext (popped l m rest s)) with
          | error e => rintro rfl; exact hn hr
          | ok s' =>
            refine hv s' w1 (hi.T.intN _ _) ?_ ?_ hr
            · intro h hm
              obtain ⟨_, h2⟩ := hi.T.intTy h m.dest ty hm
              exact ⟨by rw [← h2]; exact hl, hl⟩
            · intro h hm k hk
              rw [w2 h (by
                intro hx
                exact (hi.T.extIff h m.dest (hi.T.extTy h _ _ hx).2).2 (hi.T.intTy h m.dest ty hm).2), w3]
              exact hrd (s.subs m.dest ty).int h hm k hk
        exact key
      | call h o =>
        simp only [onCall]
        obtain ⟨e1, e2⟩ := invE_popCall c s l m rest h o hi.E hq hb
        have hQ := invQ_popLocal c s l m rest hi.Q hq hl
        have hP := invP_popLocal c s l m rest hi.P hq hl (by simp [protoOp, hb]) (by simp [isUnsub, hb])
        split
        · simp only [callHandler]
          apply good_runActs
          exact ⟨invQ_exec c _ l h o hQ, e2, hi.T.of rfl rfl rfl, hP.of rfl rfl rfl rfl⟩
        · exact ⟨hQ, e1, hi.T.of rfl rfl rfl, hP⟩
      | extSub h addr =>
        obtain ⟨s', h1, h2⟩ := good_onExtSub c s l m rest h addr hi hq hl hb
        simp only [popped] at h1
        simp only [h1]; exact h2
      | unsub h addr =>
        rcases good_onUnsub c s l m rest h addr hi hq hl hb with ⟨p, _, _, _, h1⟩ | ⟨s', h1, h2⟩
        · simp only [popped] at h1
          simp only [h1]; intro h; cases h
        · simp only [popped] at h1
          simp only [h1]; exact h2
      | commit h addr =>
        obtain ⟨s', h1, h2⟩ := good_onCommit c s l m rest h addr hi hq hl hb
        simp only [popped] at h1
        simp only [h1]; exact h2
      | confirm h addr =>
        exact ⟨invQ_popLocal c s l m rest hi.Q hq hl, (invE_popOther c s l m rest hi.E hq (by simp [hb])).1, hi.T.of rfl rfl rfl,
            invP_popLocal c s l m rest hi.P hq hl (by simp [protoOp, hb]) (by simp [isUnsub, hb])⟩
    · rw [if_pos hl]
      exact ⟨invQ_forward c s l m rest hi.Q hq hl, invE_forward c s l m rest hi.E hq hl, hi.T.of rfl rfl rfl,
        invP_forward c s l m rest hi.P hi.Q hq hl⟩

theorem inv_poll (c : Cfg) (l : Nat) (s : State) (hi : Inv c s) : Inv c (poll l s) := by
  refine ⟨invQ_poll c s l hi.Q, invE_poll c s l hi.E, ?_, invP_poll c s l hi.P hi.Q⟩
  simp only [poll]
  cases s.inb l with
  | nil => exact hi.T
  | cons m rest => exact hi.T.of rfl rfl rfl

theorem step_good (c : Cfg) (env : Env) (s : State) (op : Op) (hi : Inv c s) : Good c (step c env s op) := by
  cases op with
  | take l => exact good_take c env l s hi
  | poll l => exact inv_poll c l s hi
  | act a l => exact good_runActs c a l s hi
  | outside dest ty =>
    refine ⟨?_, ?_, hi.T.of rfl rfl rfl, ?_⟩
    · exact invQ_enqueue c { s with next := s.next + 1 } ⟨s.next, none, dest, .user ty⟩ (hi.Q.of rfl rfl rfl (Nat.le_succ _)) rfl
    · exact invE_enqueue c { s with next := s.next + 1 } _ ⟨s.next, none, dest, .user ty⟩ (hi.E.of rfl rfl rfl) (by simp)
    · exact invP_enqueue c { s with next := s.next + 1 } _ ⟨s.next, none, dest, .user ty⟩ (hi.P.of rfl rfl rfl rfl) (by simp [protoOp])
        (by simp [isProto]) (by simp)
  | life a alive st => exact ⟨hi.Q.of rfl rfl rfl (Nat.le_refl _), hi.E.of rfl rfl rfl, hi.T.of rfl rfl rfl, hi.P.of rfl rfl rfl rfl⟩
  | dropPlugin a => exact ⟨hi.Q.of rfl rfl rfl (Nat.le_refl _), hi.E.of rfl rfl rfl, hi.T.of rfl rfl rfl, hi.P.of rfl rfl rfl rfl⟩

theorem run_good (c : Cfg) (env : Env) : ∀ (ops : List Op) (s : State), Inv c s → Good c (run c env s ops) := by
  intro ops
  induction ops with
  | nil => intro s hi; exact hi
  | cons op ops ih =>
    intro s hi
    simp only [run]
    have := step_good c env s op hi
    cases hs : step c env s op with
    | error e => rw [hs] at this; exact this
    | ok s1 => rw [hs] at this; exact ih s1 this

/-- everything that is reachable from the empty system -/
theorem reach (c : Cfg) (env : Env) (ops : List Op) (s : State) (h : run c env .init ops = .ok s) : Inv c s := by
  have := run_good c env ops .init (inv_init c)
  rw [h] at this; exact this

end Verif.Net
