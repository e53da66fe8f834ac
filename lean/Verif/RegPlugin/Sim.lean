import Verif.RegPlugin.Mini
/-!
# The plugin's operations are chains of elementary steps
-/

namespace Verif.RegPlugin
open Verif

variable {c : Conf} {σ σ' : State}

theorem sim_rest {o : Ora} (h1 : σ.st = .initializing) (h2 : σ.initReq = true) (h3 : σ.rInitL = false) (h4 : σ.rInitR = false) :
    Ms c σ (pollRest o σ) := by
  unfold pollRest
  split
  · exact .one (.finI σ h1 h2 h3 h4)
  · exact .refl _

theorem hasReg_false : hasRegistering σ = false ↔ ∀ p, p ∈ σ.regs → p.2.st ≠ .registering := by
  unfold hasRegistering; simp

theorem wants_empty (e : wants c c.wants { σ with confR := true } = .ok σ') (h1 : σ'.disc = []) (h2 : hasRegistering σ' = false) : c.wants = [] := by
  obtain ⟨regs', disc', e1, e2, e3, e4, e5, e6⟩ := wants_spec e
  subst e1
  cases hw : c.wants with
  | nil => rfl
  | cons w ws =>
    exfalso
    simp only at h1 h2
    cases w with
    | reg n a =>
      have := (e4 n ⟨a, .registering⟩).2 (.inr ⟨a, by rw [hw]; simp, rfl⟩)
      exact hasReg_false.1 h2 _ (AMap.mem_of_find this) rfl
    | disc n v d cb =>
      have := (e3 n ⟨v, d, cb, .passive⟩).2 (.inr ⟨v, d, cb, by rw [hw]; simp, rfl⟩)
      rw [h1] at this
      cases this

theorem wants_fields (e : wants c c.wants { σ with confR := true } = .ok σ') :
    σ'.st = σ.st ∧ σ'.initReq = σ.initReq ∧ σ'.rInitR = σ.rInitR ∧ σ'.confR = true ∧ σ'.confL = σ.confL ∧ (c.wants = [] → σ'.rInitL = σ.rInitL) := by
  obtain ⟨regs', disc', e1, -⟩ := wants_spec e
  subst e1
  rcases linkedTo_cases c c.wants { σ with confR := true } with ⟨e, -⟩ | ⟨-, f, e⟩ <;> rw [e] <;> simp_all

theorem sim_registry {o : Ora} (hb : Base σ) (h1 : σ.st = .initializing) (h2 : σ.initReq = true) (h3 : σ.rInitL = false)
    (e : pollRegistry c o σ = .ok σ') : Ms c σ σ' := by
  unfold pollRegistry at e
  split at e
  · split at e
    · cases e
    · rename_i σ1 hc
      unfold confRegistry at hc
      split at hc
      · rename_i hr
        injection hc with hc; subst hc
        split at e
        · rename_i hd
          injection e with e; subst e
          exact .head (.offR σ hr (List.isEmpty_iff.1 hd.1) hd.2) (sim_rest h1 h2 h3 rfl)
        · injection e with e; subst e; exact .refl _
      · rename_i hr
        have hr' : σ.confR = false := by simpa using hr
        have m : M c σ σ1 := .confR σ σ1 hr' h1 h2 (hb.rl h1 h3) hc
        obtain ⟨f1, f2, f3, f4, f5, f6⟩ := wants_fields hc
        split at e
        · rename_i hd
          injection e with e; subst e
          have hw := wants_empty hc (List.isEmpty_iff.1 hd.1) hd.2
          refine .head m (.head (.offR σ1 f4 (List.isEmpty_iff.1 hd.1) hd.2) (sim_rest ?_ ?_ ?_ rfl))
          · exact f1.trans h1
          · exact f2.trans h2
          · exact (f6 hw).trans h3
        · injection e with e; subst e; exact .one m
  · rename_i hr
    injection e with e; subst e
    exact sim_rest h1 h2 h3 (by simpa using hr)

theorem links_fields (e : links c.links { σ with confL := true } = .ok σ') :
    σ'.st = σ.st ∧ σ'.initReq = σ.initReq ∧ σ'.rInitR = σ.rInitR ∧ σ'.confR = σ.confR ∧ σ'.confL = true := by
  obtain ⟨srv', b, e1, -⟩ := links_spec e
  subst e1
  exact ⟨rfl, rfl, rfl, rfl, rfl⟩

theorem sim_init {o : Ora} (hb : Base σ) (e : initContinue c o σ = .ok σ') : Ms c σ σ' := by
  unfold initContinue at e
  split at e
  · rename_i h
    obtain ⟨h1, h2⟩ := h
    split at e
    · split at e
      · cases e
      · rename_i σ1 hc
        unfold confClient at hc
        split at hc
        · rename_i hl
          injection hc with hc; subst hc
          split at e
          · rename_i hn
            have m : M c σ { σ with rInitL := false } := .offL σ hl hn
            exact .head m (sim_registry (hb.step m) h1 h2 rfl e)
          · injection e with e; subst e; exact .refl _
        · rename_i hl
          have hl' : σ.confL = false := by simpa using hl
          have m : M c σ σ1 := .confL σ σ1 hl' h1 h2 hc
          obtain ⟨f1, f2, f3, f4, f5⟩ := links_fields hc
          split at e
          · rename_i hn
            have m2 : M c σ1 { σ1 with rInitL := false } := .offL σ1 f5 hn
            exact .head m (.head m2 (sim_registry ((hb.step m).step m2) (f1.trans h1) (f2.trans h2) rfl e))
          · injection e with e; subst e; exact .one m
    · rename_i hr
      exact sim_registry hb h1 h2 (by simpa using hr) e
  · cases e

theorem sim_client {o : Ora} (h1 : σ.st = .shuttingDown) (h2 : σ.rShutR = false) :
    Ms c σ (pollClientDown o σ) ∧ (pollClientDown o σ).st = .shuttingDown ∧ ∀ a, a ∈ (pollClientDown o σ).qLink → a ∈ σ.qLink := by
  unfold pollClientDown shutClient
  split
  · split
    · rename_i hs
      split at hs
      · injection hs with a _; subst a
        exact ⟨.one (.clientEnd σ h1 h2), h1, fun _ h => h⟩
      · split at hs
        · injection hs with _ b; cases b
        · injection hs with a _; subst a
          exact ⟨.one (.client σ false h1 h2), h1, fun _ h => by simp at h⟩
    · rename_i hs
      split at hs
      · injection hs with _ b; cases b
      · split at hs
        · injection hs with a _; subst a
          exact ⟨.refl _, h1, fun _ h => h⟩
        · injection hs with _ b; cases b
  · exact ⟨.refl _, h1, fun _ h => h⟩

theorem sim_shutdown {o : Ora} (e : shutdownContinue o σ = .ok σ') : Ms c σ σ' ∧ σ'.st = .shuttingDown ∧ ∀ a, a ∈ σ'.qLink → a ∈ σ.qLink := by
  unfold shutdownContinue at e
  split at e
  · rename_i h1
    split at e
    · split at e
      · rename_i h2
        unfold shutRegistry at e
        split at e
        · rename_i hs
          split at hs
          · rename_i hd
            injection hs with a _; subst a
            injection e with e; subst e
            have m : M c σ { shutNames σ with al := [], rShutR := false } := .namesEnd σ h1 h2 (List.isEmpty_iff.1 hd)
            have := sim_client (c := c) (o := o) (σ := { shutNames σ with al := [], rShutR := false }) h1 rfl
            exact ⟨.head m this.1, this.2.1, this.2.2⟩
          · injection hs with _ b; cases b
        · rename_i hs
          split at hs
          · injection hs with _ b; cases b
          · rename_i hd
            injection hs with a _; subst a
            injection e with e; subst e
            exact ⟨.one (.names σ h1 h2 (fun h => hd (by rw [h]; rfl))), h1, fun _ h => h⟩
      · rename_i h2
        injection e with e; subst e
        exact sim_client h1 (by simpa using h2)
    · injection e with e; subst e; exact ⟨.refl _, h1, fun _ h => h⟩
  · cases e

/-- while a link is pending nothing happens -/
theorem init_stays {o : Ora} {a : Nat} {cb : LinkCb} (h1 : σ.st = .initializing) (h2 : σ.initReq = true) (h3 : σ.rInitL = true) (h4 : σ.confL = true)
    (h5 : σ.srv.find a = some ⟨false, cb⟩) : initContinue c o σ = .ok σ := by
  have : notLinking σ = false := by
    cases h : notLinking σ with
    | false => rfl
    | true => have := notLinking_find h h5; simp at this
  unfold initContinue confClient
  rw [if_pos ⟨h1, h2⟩, if_pos h3, if_pos h4]
  simp only [this, Bool.false_eq_true, if_false]

theorem sim_reg {n : Nat} {ok : Bool} {o : Ora} (hb : Base σ) (hq : n ∈ σ.qReg)
    (e : onRegistration c n ok o { σ with qReg := rm σ.qReg n, log := .regRes n ok :: σ.log } = .ok σ') : Ms c σ σ' := by
  unfold onRegistration at e
  split at e
  · cases e
  · rename_i r hr
    simp only at hr
    cases ok with
    | true =>
      simp only [if_true] at e
      have m := M.regOk (c := c) σ n r hq hr
      split at e
      · unfold continueInit at e
        split at e
        · exact .head m (sim_init (hb.step m) e)
        · cases e
      · injection e with e; subst e; exact .one m
    | false =>
      simp only [Bool.false_eq_true, if_false, or_true, if_true] at e
      unfold continueInit at e
      split at e
      · rename_i hi
        simp only [Bool.false_eq_true, if_false] at e
        injection e with e; subst e
        exact .one (.regErr σ n r hq hr hi)
      · cases e

theorem eraseNames_congr {τ : State} {n : Nat} {t : Task} (h1 : τ.al = σ.al) (h2 : τ.vars = σ.vars) (h3 : τ.disc = σ.disc) :
    eraseNames n t τ = eraseNames n t σ := by
  unfold eraseNames; rw [h1, h2, h3]

theorem sim_disc {n : Nat} {res : Option Nat} {o : Ora} (hb : Base σ) (hq : n ∈ σ.qDisc)
    (e : onDiscovery c n res o { σ with qDisc := rm σ.qDisc n, log := .discRes n res :: σ.log } = .ok σ') : Ms c σ σ' := by
  unfold onDiscovery at e
  split at e
  · cases e
  · rename_i t ht
    simp only at ht
    split at e
    · rename_i a
      have hs : store n t a { σ with qDisc := rm σ.qDisc n, log := .discRes n (some a) :: σ.log } =
          { σ with qDisc := rm σ.qDisc n, log := foundEv n t a ++ .discRes n (some a) :: σ.log, vars := σ.put t.v a } := by
        unfold store foundEv State.put
        cases t.cb <;> simp [State.ev]
      simp only [hs] at e
      split at e
      · rename_i h1
        unfold linkTask at e
        have hv : σ.put t.v a t.v = some a := by simp [State.put]
        simp only [hv] at e
        split at e
        · rename_i names hn
          injection e with e; subst e
          exact .one (.alias σ n a t names hq ht h1 hn)
        · rename_i hn
          unfold link at e
          split at e
          · cases e
          · rename_i σ1 hl
            split at hl
            · cases hl
            · rename_i hs
              injection hl with hl; subst hl
              injection e with e; subst e
              exact .one (.found σ n a t hq ht h1 hn (by simpa using hs))
      · rename_i h1
        unfold postDiscovery at e
        split at e
        · cases e
        · rename_i t' ht'
          simp only at ht'
          rw [ht] at ht'; injection ht' with ht'; subst ht'
          have m := M.foundDown (c := c) σ n a t
            (eraseNames n t { σ with qDisc := rm σ.qDisc n, log := foundEv n t a ++ .discRes n (some a) :: σ.log, vars := σ.put t.v a }) hq ht h1
            (by
              intro m
              rw [erase_find]
              split <;> split <;> simp) (fun h => by exact erase_keys h)
          simp only at e
          split at e
          · exact .head m (sim_shutdown e).1
          · injection e with e; subst e; exact .one m
    · unfold postDiscovery at e
      split at e
      · cases e
      · rename_i t' ht'
        simp only at ht'
        rw [ht] at ht'; injection ht' with ht'; subst ht'
        have hx : eraseNames n t { σ with qDisc := rm σ.qDisc n, log := .discRes n none :: σ.log } = eraseNames n t σ := eraseNames_congr rfl rfl rfl
        simp only [hx, or_true, if_true] at e
        split at e
        · rename_i h1
          unfold continueInit at e
          split at e
          · rename_i hi
            simp only [Bool.false_eq_true, if_false] at e
            injection e with e; subst e
            exact .one (.lostInit σ n t hq ht h1 hi)
          · cases e
        · rename_i h1
          exact .head (.lostDown σ n t hq ht h1) (sim_shutdown e).1

theorem task_spec {n : Nat} {ok : Bool} {o : Ora} (e : onTaskLink c n ok o σ = .ok σ') : ∃ t names, σ.disc.find n = some t ∧
    σ.al.find (σ.vars t.v) = some names ∧ (∀ m, m ∈ names → ∃ t', σ.disc.find m = some t') ∧
    (if (eraseNames n t σ).isEmpty = true ∨ ok = false then
      (if σ.st = .initializing then continueInit c ok o { σ with log := callEvs σ ok names ++ σ.log, disc := eraseNames n t σ }
       else shutdownContinue o { σ with log := callEvs σ ok names ++ σ.log, disc := eraseNames n t σ }) = .ok σ'
     else { σ with log := callEvs σ ok names ++ σ.log, disc := eraseNames n t σ } = σ') := by
  unfold onTaskLink at e
  split at e
  · cases e
  · rename_i t ht
    split at e
    · cases e
    · rename_i names hn
      split at e
      · cases e
      · rename_i σ1 hc
        obtain ⟨f1, f2⟩ := callAll_spec hc
        subst f1
        refine ⟨t, names, ht, hn, f2, ?_⟩
        unfold postDiscovery at e
        split at e
        · cases e
        · rename_i t' ht'
          simp only at ht'
          rw [ht] at ht'; injection ht' with ht'; subst ht'
          have hx : eraseNames n t { σ with log := callEvs σ ok names ++ σ.log } = eraseNames n t σ := eraseNames_congr rfl rfl rfl
          simp only [hx] at e
          split at e
          · rename_i hd
            rw [if_pos hd]
            split at e
            · rename_i h1; rw [if_pos h1]; exact e
            · rename_i h1; rw [if_neg h1]; exact e
          · rename_i hd
            rw [if_neg hd]
            injection e

theorem sim_end {a : Nat} {o : Ora} {σ1 : State} (m : Ms c σ σ1) (e : linkEnd c a false o σ1 = .ok σ') : Ms c σ σ' := by
  unfold linkEnd at e
  simp only [Bool.false_eq_true, if_false] at e
  injection e with e
  split at e
  · rename_i hi; subst e; exact .tail m (.failReset σ1 hi)
  · subst e; exact m

theorem erase_if {b : Bool} (h : σ.initReq = b) : ({ σ with initReq := b } : State) = σ := by subst h; rfl

theorem sim_link {a : Nat} {ok : Bool} {o1 o2 : Ora} (hb : Base σ) (hq : a ∈ σ.qLink)
    (e : onLinkResponse c a ok o1 o2 { σ with qLink := rm σ.qLink a, log := .linkRes a ok :: σ.log } = .ok σ') : Ms c σ σ' := by
  unfold onLinkResponse at e
  split at e
  · cases e
  · rename_i r hr
    simp only at hr
    have hna : a ∉ rm σ.qLink a := fun h => by
      unfold rm at h; rw [hb.nd.mem_erase_iff] at h; exact h.1 rfl
    split at e
    · cases e
    · rename_i σ1 h1
      unfold runCb at h1
      cases ok with
      | true =>
        simp only [if_true] at h1
        split at h1
        · rename_i hcb
          injection h1 with h1; subst h1
          unfold linkEnd at e
          simp only [if_true, hr] at e
          have m := M.linkUser (c := c) σ a r hq hr hcb
          split at e
          · exact .head m (sim_init (hb.step m) e)
          · injection e with e; subst e; exact .one m
        · rename_i hcb
          injection h1 with h1; subst h1
          unfold linkEnd at e
          have hr' : (onLink true { σ with qLink := rm σ.qLink a, log := .linkRes a true :: σ.log }).srv.find a = some r := hr
          simp only [if_true, hr'] at e
          have m := M.linkReg (c := c) σ a r hq hr hcb
          split at e
          · exact .head m (sim_init (hb.step m) e)
          · injection e with e; subst e; exact .one m
        · rename_i n hcb
          obtain ⟨t, names, ht, hn, hall, h2⟩ := task_spec h1
          simp only at ht hn hall
          by_cases hst : σ.st = .initializing
          · have h3 : σ1 = { σ with qLink := rm σ.qLink a, log := callEvs σ true names ++ .linkRes a true :: σ.log, disc := eraseNames n t σ } := by
              obtain ⟨cb, hp⟩ := hb.pend a hq
              obtain ⟨g1, g2, -⟩ := hb.on hst a cb hp
              split at h2
              · simp only [hst, if_true] at h2
                unfold continueInit at h2
                split at h2
                · rename_i hi
                  simp only [if_true] at h2
                  rw [init_stays (a := a) (cb := cb) rfl hi g1 g2 hp] at h2
                  injection h2 with h2
                  rw [← h2]
                  cases σ; simp only at hst; subst hst; rfl
                · cases h2
              · rw [← h2]; rfl
            subst h3
            unfold linkEnd at e
            simp only [if_true, hr] at e
            have m := M.linkTask (c := c) σ a n r t names hq hr hcb ht hn hall hst
            split at e
            · exact .head m (sim_init (hb.step m) e)
            · injection e with e; subst e; exact .one m
          · have m := M.linkTaskDown (c := c) σ a n r t names hq hr hcb ht hn hall hst
            have h3 : Ms c σ σ1 ∧ σ1.st ≠ .initializing ∧ a ∉ σ1.qLink := by
              split at h2
              · simp only [hst, if_false] at h2
                obtain ⟨k1, k2, k3⟩ := sim_shutdown (c := c) h2
                exact ⟨.head m k1, by rw [k2]; simp, fun h => hna (k3 a h)⟩
              · rw [← h2]; exact ⟨.one m, hst, hna⟩
            obtain ⟨k1, k2, k3⟩ := h3
            unfold linkEnd at e
            simp only [if_true] at e
            split at e
            · cases e
            · rename_i r' hr'
              have m2 := M.setOp (c := c) σ1 a r' k2 hr' k3
              split at e
              · exact (k1.tail m2).trans (sim_init ((hb.steps k1).step m2) e)
              · injection e with e; subst e; exact k1.tail m2
      | false =>
        simp only [Bool.false_eq_true, if_false] at h1
        split at h1
        · rename_i hcb
          injection h1 with h1; subst h1
          have m := M.linkErr (c := c) σ a r hq hr (by simp [hcb])
          unfold linkEnd at e
          simp only [Bool.false_eq_true, if_false] at e
          injection e with e; subst e
          refine .one ?_
          split
          · rename_i hi; simpa [hi, hcb] using m
          · rename_i hi
            have hi : σ.initReq = false := by simpa using hi
            simpa [hi, hcb] using m
        · rename_i hcb
          injection h1 with h1; subst h1
          have m := M.linkErr (c := c) σ a r hq hr (by simp [hcb])
          unfold linkEnd at e
          simp only [Bool.false_eq_true, if_false, onLink] at e
          injection e with e; subst e
          refine .one ?_
          split
          · rename_i hi; simpa [hi, hcb] using m
          · rename_i hi
            have hi : σ.initReq = false := by simpa using hi
            simpa [hi, hcb] using m
        · rename_i n hcb
          obtain ⟨t, names, ht, hn, hall, h2⟩ := task_spec h1
          simp only at ht hn hall
          simp only [or_true, if_true] at h2
          by_cases hst : σ.st = .initializing
          · simp only [hst, if_true] at h2
            unfold continueInit at h2
            split at h2
            · rename_i hi
              simp only at hi
              simp only [Bool.false_eq_true, if_false] at h2
              injection h2 with h2
              have m := M.linkTaskErr (c := c) σ a n r t names hq hr hcb ht hn hall (fun _ => hi)
              rw [if_pos hst] at m
              refine sim_end (.one ?_) e
              rw [← h2]
              cases σ; simp only at hst; subst hst; exact m
            · cases h2
          · simp only [hst, if_false] at h2
            have m := M.linkTaskErr (c := c) σ a n r t names hq hr hcb ht hn hall (fun h => absurd h hst)
            rw [if_neg hst] at m
            exact sim_end (.head m (sim_shutdown h2).1) e

def isPoke : Op → Bool
  | .poke _ _ => true
  | _ => false

theorem sim_step {op : Op} (hb : Base σ) (hp : isPoke op = false) (e : step c σ op = .ok σ') : Ms c σ σ' := by
  cases op <;> simp only [step] at e
  case init o =>
    split at e
    · rename_i h
      have m := M.recvInit (c := c) σ h.1 h.2
      split at e
      · exact .head m (sim_init (hb.step m) e)
      · injection e with e; subst e; exact .one m
    · cases e
  case contInit o =>
    split at e
    · exact sim_init hb e
    · cases e
  case contShut o =>
    split at e
    · exact (sim_shutdown e).1
    · cases e
  case shut o =>
    split at e
    · rename_i h; exact .head (.shut σ h) (sim_shutdown e).1
    · cases e
  case finish =>
    split at e
    · rename_i h; injection e with e; subst e; exact .one (.finish σ h.1 h.2)
    · cases e
  case start =>
    split at e
    · rename_i h; injection e with e; subst e; exact .one (.start σ h)
    · cases e
  case regRes n ok o =>
    split at e
    · rename_i hq
      split at e
      · rename_i h; injection e with e; subst e; exact .one (.dropReg σ n h)
      · exact sim_reg hb hq e
    · cases e
  case discRes n res o =>
    split at e
    · rename_i hq
      split at e
      · rename_i h; injection e with e; subst e; exact .one (.dropDisc σ n h)
      · exact sim_disc hb hq e
    · cases e
  case linkRes a ok o1 o2 =>
    split at e
    · rename_i hq
      split at e
      · rename_i h; injection e with e; subst e; exact .one (.dropLink σ a h)
      · exact sim_link hb hq e
    · cases e
  case forget a =>
    split at e
    · rename_i r hr
      split at e
      · rename_i h; injection e with e; subst e; exact .one (.forget σ a r hr h)
      · cases e
    · cases e
  case poke => simp [isPoke] at hp

end Verif.RegPlugin
