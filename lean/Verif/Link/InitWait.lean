import Verif.Link.Wait
/-!
# An actor that is initializing waits for links only

If the other plugins agree at once and no timer expires, an actor that has not answered its init request has a link that is not
confirmed.
-/

namespace Verif.Link
open Verif

def Busy (x : Actor) : Prop :=
  x.st = .initializing → x.servers.keys.Nodup ∧ (x.initReq = true → ∃ y rid, x.servers.find y = some (.linking rid))

theorem Busy.same {x y : Actor} (h : Busy x) (h1 : y.st = x.st) (h2 : y.initReq = x.initReq) (h3 : y.servers = x.servers) : Busy y := by
  unfold Busy at *
  rw [h1, h2, h3]
  exact h

theorem Busy.of_st {x : Actor} (h : x.st ≠ .initializing) : Busy x := fun h' => absurd h' h

def AllBusy (σ : State) : Prop := ∀ x, Busy (σ.act x)

theorem AllBusy.of_act {σ σ' : State} (h : AllBusy σ) (e : σ'.act = σ.act) : AllBusy σ' := fun x => by rw [e]; exact h x

theorem AllBusy.mod {σ : State} (h : AllBusy σ) {a : Nat} {f : Actor → Actor}
    (hf : Busy (σ.act a) → Busy (f (σ.act a))) : AllBusy (σ.mod a f) := by
  intro x
  rw [mod_act]
  split
  · exact hf (h a)
  · exact h x

/-- all but one, which has no server twice -/
def ButBusy (c : Nat) (σ : State) : Prop :=
  (∀ x, x ≠ c → Busy (σ.act x)) ∧ ((σ.act c).st = .initializing → (σ.act c).servers.keys.Nodup)

theorem AllBusy.but {σ : State} (h : AllBusy σ) (c : Nat) : ButBusy c σ := ⟨fun x _ => h x, fun hs => (h c hs).1⟩

theorem ButBusy.mod {σ : State} {a : Nat} (h : ButBusy a σ) (f : Actor → Actor) (h1 : (f (σ.act a)).st = (σ.act a).st)
    (h2 : (σ.act a).servers.keys.Nodup → (f (σ.act a)).servers.keys.Nodup) : ButBusy a (σ.mod a f) := by
  refine ⟨fun x hx => ?_, ?_⟩
  · rw [mod_act, if_neg hx]
    exact h.1 x hx
  · rw [mod_act_self, h1]
    exact fun hs => h2 (h.2 hs)

theorem link_busy {c s : Nat} {op : Bool} {σ σ' : State} (h : ButBusy c σ) (hl : link c s op σ = .ok σ') : AllBusy σ' := by
  unfold link at hl
  split at hl
  · injection hl with hl; subst hl
    intro x
    by_cases hx : x = c
    · subst hx
      simp only [State.mod, upd, if_true]
      exact fun hs => ⟨AMap.keys_set_nodup _ _ _ (h.2 hs), fun _ => ⟨s, σ.nx, by simp⟩⟩
    · simp only [State.mod, upd, hx, if_false]
      exact h.1 x hx
  · simp at hl

theorem ButBusy.linkAll {c : Nat} : ∀ {l : List (Nat × Bool)} {σ σ' : State}, ButBusy c σ → linkAll c l σ = .ok σ' → ButBusy c σ' := by
  intro l
  induction l with
  | nil => intro σ σ' h hl; simp [Link.linkAll] at hl; subst hl; exact h
  | cons p l ih =>
    intro σ σ' h hl
    obtain ⟨s, op⟩ := p
    simp only [Link.linkAll] at hl
    split at hl
    · simp at hl
    · rename_i σ1 h1
      exact ih ((link_busy h h1).but c) hl

theorem AllBusy.initContinue {c : Nat} {o : Ora} {σ σ' : State} (h : ButBusy c σ) (hi : initContinue c o σ = .ok σ')
    (ho : o.next = true) : AllBusy σ' := by
  unfold Link.initContinue at hi
  split at hi
  · split at hi
    · rename_i hl
      injection hi with hi; subst hi
      intro x
      by_cases hx : x = c
      · subst hx
        intro hs
        refine ⟨h.2 hs, fun _ => ?_⟩
        obtain ⟨p, hp, hq⟩ := List.any_eq_true.1 hl.2
        obtain ⟨y, ph⟩ := p
        cases ph with
        | operational => simp [isLinking] at hq
        | linking rid => exact ⟨y, rid, AMap.find_of_mem (h.2 hs) hp⟩
      · exact h.1 x hx
    · split at hi
      · simp at hi
      · rename_i σ2 h2
        have h3 : ButBusy c σ2 := (h.mod (fun a => { a with rInit := false }) rfl id).linkAll h2
        injection hi with hi; subst hi
        intro x
        by_cases hx : x = c
        · subst hx
          refine .of_st ?_
          rw [Link.initFinish, mod_act_self]; simp
        · simp only [Link.initFinish, mod_act, hx, if_false]
          exact h3.1 x hx
  · simp at hi

theorem AllBusy.onLinkRes {c s rid : Nat} {ok : Bool} {o : Ora} {σ σ' : State} (h : AllBusy σ) (hf : onLinkRes c s rid ok o σ = .ok σ')
    (ho : ok = true → o.next = true) : AllBusy σ' := by
  unfold Link.onLinkRes at hf
  split at hf
  · simp at hf
  · simp only at hf
    have h0 : AllBusy { σ with hist := upd2 σ.hist c s (.known rid ok :: σ.hist c s) } := h
    split at hf
    · rename_i hok
      split at hf
      · exact AllBusy.initContinue ((h0.but c).mod _ rfl (AMap.keys_set_nodup _ _ _)) hf (ho hok)
      · rename_i hq
        injection hf with hf; subst hf
        exact h0.mod (fun hw hs => ⟨AMap.keys_set_nodup _ _ _ (hw hs).1, fun hr => absurd hr hq⟩)
    · split at hf
      · injection hf with hf; subst hf
        rw [mod_mod]
        exact h0.mod (fun hw hs => ⟨AMap.keys_erase_nodup _ _ (hw hs).1, by simp⟩)
      · rename_i hq
        injection hf with hf; subst hf
        exact h0.mod (fun hw hs => ⟨AMap.keys_erase_nodup _ _ (hw hs).1, fun hr => absurd hr hq⟩)

/-- an actor that is shutting down does not initialize -/
theorem AllBusy.shutdownContinue {a : Nat} {o : Ora} {σ σ' : State} (h : ∀ x, x ≠ a → Busy (σ.act x))
    (hc : shutdownContinue a o σ = .ok σ') : AllBusy σ' := by
  have hs : (σ.act a).st = .shuttingDown := by
    unfold Link.shutdownContinue at hc
    split at hc
    · assumption
    · simp at hc
  intro x
  by_cases hx : x = a
  · subst hx
    refine .of_st (fun e => ?_)
    have := (sim_shutdownContinue (φ := .any) hc x x).keeps (P := fun v => 5 ≤ v.cs.rank) ?_ (by simp [view, hs, AState.rank])
    · simp [view, e, AState.rank] at this
    · intro v w hv st
      cases st <;> simp only [AState.rank] at * <;> grind [AState.rank]
  · rw [(wait_shutdownContinue hc).2 x hx]; exact h x hx

theorem AllBusy.continueIf {a : Nat} {o : Ora} {σ σ' : State} (h : AllBusy σ) (hc : continueIf a o σ = .ok σ') : AllBusy σ' := by
  unfold Link.continueIf at hc
  split at hc
  · exact AllBusy.shutdownContinue (fun x _ => h x) hc
  · injection hc with hc; subst hc; exact h

/-- links that are not confirmed are not forgotten -/
theorem AllBusy.tryForget {c : Nat} {σ : State} (h : AllBusy σ)
    (hu : ∀ y rid, (σ.act c).servers.find y = some (.linking rid) → (σ.act c).unlinkQ.find y = none) : AllBusy (tryForget c σ) := by
  unfold Link.tryForget
  split
  · refine AllBusy.of_act (σ := σ.mod c (fun a => { a with servers := a.servers.filter (fun p => (a.unlinkQ.find p.1).isNone) })) ?_ rfl
    refine AllBusy.mod (σ := σ) h (fun hw hs => ?_)
    obtain ⟨h1, h2⟩ := hw hs
    refine ⟨?_, fun hr => ?_⟩
    · exact (List.filter_sublist.map _).nodup h1
    · obtain ⟨y, rid, hf⟩ := h2 hr
      refine ⟨y, rid, ?_⟩
      show AMap.find ((σ.act c).servers.filter (fun p => ((σ.act c).unlinkQ.find p.1).isNone)) y = _
      rw [find_filter_key (fun k => ((σ.act c).unlinkQ.find k).isNone), hu y rid hf]
      simpa using hf
  · exact h

theorem AllBusy.forgetLink {c s u : Nat} {o : Ora} {σ σ' : State} (h : AllBusy σ) (hf : forgetLink c s u o σ = .ok σ')
    (hs : ∀ rid, (σ.act c).servers.find s ≠ some (.linking rid))
    (hu : ∀ y rid, (σ.act c).servers.find y = some (.linking rid) → (σ.act c).unlinkQ.find y = none) : AllBusy σ' := by
  unfold Link.forgetLink at hf
  split at hf
  · injection hf with hf; subst hf; exact h
  · have h1 : AllBusy (Link.tryForget c (σ.mod c (fun a => { a with unlinkQ := a.unlinkQ ++ [(s, u)] }))) := by
      refine (h.mod (fun hw => hw.same rfl rfl rfl)).tryForget ?_
      rw [mod_act_self]
      intro y rid hy
      simp only at hy ⊢
      rw [find_append_one, hu y rid hy]
      have : s ≠ y := fun e => by subst e; exact hs rid hy
      simp [this]
    simp only at hf
    split at hf
    · exact h1.continueIf hf
    · injection hf with hf; subst hf; exact h1

theorem Cl.uqNone {σ : State} (h : Cl σ) (c y rid : Nat) (hf : (σ.act c).servers.find y = some (.linking rid)) :
    (σ.act c).unlinkQ.find y = none := by
  obtain ⟨hh, -, hk, -⟩ := h c y
  cases e : (σ.act c).unlinkQ.find y with
  | none => rfl
  | some u =>
    have hr : (view σ c y).r = some (.linking rid) := hf
    have := (hk.op_of_uq hh (u := u) e (by simp [hr])).1
    rw [hr] at this; simp at this

/-- a client that is asked to unlink has a confirmed link or none -/
theorem Cl.notLinking {σ : State} (h : Cl σ) (c s u : Nat) (hq : (σ.act s).clients.find c = some (.unlinking u) ∨ (σ.act c).servers.find s = none)
    (hl : ∀ rid, Dn.linkRes rid true ∉ σ.dn s c) (rid : Nat) : (σ.act c).servers.find s ≠ some (.linking rid) := by
  intro hf
  obtain ⟨hh, -, hk, -⟩ := h c s
  have hr : (view σ c s).r = some (.linking rid) := hf
  rcases hq with hq | hq
  · have hq' : (view σ c s).q = some (.unlinking u) := hq
    have hl' : ∀ rid, Dn.linkRes rid true ∉ (view σ c s).dn := hl
    rcases hk.plink rid hr with ⟨op, h1, h2, _⟩ | ⟨op, h1, h2, _⟩ | ⟨_, _, h3⟩ | ⟨_, h2, _⟩ | ⟨_, h2, _⟩
    · rw [hq'] at h2; simp at h2
    · rw [hq'] at h2; simp at h2
    · exact absurd (mem_of_ans (by rw [h3]; simp)) (hl' rid)
    · rw [hq'] at h2; simp at h2
    · rw [hq'] at h2; simp at h2
  · rw [hf] at hq; simp at hq

theorem AllBusy.step {σ σ' : State} {op : Op} (h : AllBusy σ) (hcl : Cl σ) (hs : step σ op = .ok σ') (hg : willing op = true) :
    AllBusy σ' := by
  have erase : ∀ (s c : Nat), AllBusy (σ.mod s (fun a => { a with clients := a.clients.erase c })) :=
    fun s c => h.mod (fun hw => hw.same rfl rfl rfl)
  cases op with
  | init a links o =>
    simp only [Link.step] at hs
    split at hs
    · split at hs
      · simp at hs
      · rename_i σ1 h1
        exact AllBusy.initContinue (((h.but a).mod (fun a => { a with initReq := true, asked := true }) rfl id).linkAll h1) hs hg
    · split at hs
      · rename_i hi
        injection hs with hs; subst hs
        refine h.mod (fun _ => .of_st (fun e => ?_))
        simp only at e
        rw [e] at hi
        simp [AState.rank] at hi
      · simp at hs
  | contInit a o =>
    simp only [Link.step] at hs
    split at hs
    · exact AllBusy.initContinue (h.but a) hs hg
    · simp at hs
  | link c s op =>
    simp only [Link.step] at hs
    split at hs
    · exact link_busy (h.but c) hs
    · simp at hs
  | start a =>
    simp only [Link.step] at hs
    split at hs
    · injection hs with hs; subst hs
      intro x
      simp only [onStart, mod_act]
      split
      · exact .of_st (by simp)
      · exact h x
    · simp at hs
  | shutdown a req o =>
    simp only [Link.step] at hs
    split at hs
    · refine AllBusy.shutdownContinue (fun x hx => ?_) hs
      simp only [mod_act, hx, if_false]
      exact h x
    · simp at hs
  | cont a o =>
    simp only [Link.step] at hs
    split at hs
    · exact AllBusy.shutdownContinue (fun x _ => h x) hs
    · simp at hs
  | up c s o =>
    simp only [Link.step, recvUp] at hs
    split at hs
    · injection hs with hs; subst hs; exact h
    · rename_i m t hup
      split at hs
      · split at hs
        · injection hs with hs; subst hs; exact h
        · injection hs with hs; subst hs
          unfold onLinkReq
          simp only
          split
          · exact h
          · split
            · rename_i rid op _ _ _
              exact AllBusy.of_act (σ := σ.mod s (fun a => { a with clients := a.clients.set c (.pending rid op) })) (h.mod (fun hw => hw.same rfl rfl rfl)) rfl
            · exact AllBusy.of_act (σ := σ.mod s (fun a => { a with clients := a.clients.set c .operational })) (h.mod (fun hw => hw.same rfl rfl rfl)) rfl
      · split at hs
        · split at hs
          · injection hs with hs; subst hs; exact h
          · unfold onUnlinkRes at hs
            split at hs
            · simp at hs
            · refine AllBusy.continueIf ?_ hs; exact erase s c
        · injection hs with hs; subst hs; exact h
      · split at hs
        · injection hs with hs; subst hs; exact h
        · unfold onNotify at hs
          simp only at hs
          split at hs
          · injection hs with hs; subst hs; exact h
          · split at hs
            · refine AllBusy.continueIf ?_ hs; exact erase s c
            · simp at hs
          · refine AllBusy.continueIf ?_ hs; exact erase s c
          · refine AllBusy.continueIf ?_ hs; exact erase s c
  | dn s c o =>
    simp only [Link.step, recvDn] at hs
    split at hs
    · injection hs with hs; subst hs; exact h
    · rename_i m t hdn
      split at hs
      · split at hs
        · split at hs
          · injection hs with hs; subst hs; exact h
          · refine AllBusy.onLinkRes ?_ hs (fun _ => hg)
            exact h
        · injection hs with hs; subst hs; exact h
      · rename_i u
        split at hs
        · injection hs with hs; subst hs; exact h
        · split at hs
          · injection hs with hs; subst hs
            exact AllBusy.mod (σ := { σ with dn := upd2 σ.dn s c t }) h (fun hw => hw.same rfl rfl rfl)
          · obtain ⟨hh, -, hk, -⟩ := hcl c s
            have hl := late_of_head (v := view σ c s) hh hdn
            refine AllBusy.forgetLink ?_ hs ?_ ?_
            · exact h
            · refine hcl.notLinking c s u ?_ ?_
              · rcases hk.wdn u (by simp [view, hdn]) with h | h
                · exact .inl h
                · exact .inr h.1
              · intro rid hm
                rw [hdn] at hm
                simp at hm
                exact hl.2 rid hm
            · exact fun y rid hy => hcl.uqNone c y rid hy
  | forget c s u o =>
    simp only [Link.step] at hs
    split at hs
    · rename_i hk0
      obtain ⟨hh, -, hk, -⟩ := hcl c s
      have hm : u ∈ (view σ c s).kept := mem_keptOf.2 hk0.1
      have hl := hh.keptL (List.ne_nil_of_mem hm)
      refine (h.mod (fun hw => hw.same rfl rfl rfl)).forgetLink hs ?_ ?_
      · rw [mod_act_self]
        refine hcl.notLinking c s u ?_ hl.2
        rcases hk.wk u hm with h | h
        · exact .inl h
        · exact .inr h.1
      · rw [mod_act_self]
        exact fun y rid hy => hcl.uqNone c y rid hy
    · simp at hs
  | timeoutL c s rid =>
    simp only [Link.step] at hs
    split at hs
    · injection hs with hs; subst hs; exact h
    · simp at hs
  | ltmo c s o =>
    simp only [Link.step, recvLTmo] at hs
    split at hs
    · injection hs with hs; subst hs; exact h
    · split at hs
      · injection hs with hs; subst hs; exact h
      · refine AllBusy.onLinkRes ?_ hs (by simp)
        exact h
  | timeoutU s c u =>
    simp only [Link.step] at hs
    split at hs
    · injection hs with hs; subst hs; exact h
    · simp at hs
  | utmo s c =>
    simp only [Link.step, recvUTmo] at hs
    split at hs
    · injection hs with hs; subst hs; exact h
    · rename_i u t hu
      split at hs
      · injection hs with hs; subst hs; exact h
      · split at hs
        · injection hs with hs; subst hs
          exact AllBusy.mod (σ := { σ with utmo := upd2 σ.utmo s c t }) h (fun hw => hw.same rfl rfl rfl)
        · simp at hs
  | deafC a =>
    simp only [Link.step] at hs
    split at hs
    · injection hs with hs; subst hs
      exact h.mod (fun hw => hw.same rfl rfl rfl)
    · simp at hs
  | deafS a =>
    simp only [Link.step] at hs
    split at hs
    · injection hs with hs; subst hs
      exact h.mod (fun hw => hw.same rfl rfl rfl)
    · simp at hs
  | finish a =>
    simp only [Link.step] at hs
    split at hs
    · injection hs with hs; subst hs
      intro x
      simp only [mod_act]
      split
      · exact .of_st (by simp)
      · exact h x
    · simp at hs

theorem reach_busy {φ : Fl} (hrl : φ.rl = true) (hnt : φ.nt = true) (hw : φ.wi = true) {σ : State} (h : Reach φ σ) : AllBusy σ := by
  induction h with
  | init => exact fun x _ => ⟨by simp [State.init, Actor.init, AMap.keys], by simp [State.init, Actor.init]⟩
  | step op h0 _ _ _ _ hg h ih => exact ih.step (reach_Cl hrl hnt h0) h (hg hw)

end Verif.Link
