import Verif.RegPlugin.Done
/-!
# The initialization completes when everything has succeeded
-/

namespace Verif.RegPlugin
open Verif

variable {c : Conf} {σ σ' : State}

/-- a positive answer that follows no negative one follows everything asked for -/
def Sound (c : Conf) : List Ev → Prop
  | [] => True
  | e :: l => (e = .answer true → .answer false ∉ l → AllDone c l) ∧ Sound c l

theorem Sound.split {l : List Ev} (h : Sound c l) {pre post : List Ev} (hl : l = pre ++ .answer true :: post) (hf : .answer false ∉ post) :
    AllDone c post := by
  induction pre generalizing l with
  | nil => subst hl; exact h.1 rfl hf
  | cons x pre ih => subst hl; exact ih h.2 rfl

theorem Sound.append {es l : List Ev} (h : Sound c l) (he : .answer true ∉ es) : Sound c (es ++ l) := by
  induction es with
  | nil => exact h
  | cons e es ih =>
    simp only [List.mem_cons, not_or] at he
    exact ⟨fun h => absurd h.symm he.1, ih he.2⟩

/-- pending names have been asked for -/
def Asked (c : Conf) (σ : State) : Prop :=
  ∀ n, (n ∈ σ.qReg ∨ ∃ x, Ev.regRes n x ∈ σ.log) → ∃ a, .reg n a ∈ c.wants ∧ Ev.register n a ∈ σ.log

theorem asked_init : Asked c State.init := by
  intro n; simp [State.init]

theorem Asked.plain {es : List Ev} (h : Asked c σ) (hl : σ'.log = es ++ σ.log) (hq : ∀ n, n ∈ σ'.qReg → n ∈ σ.qReg)
    (he : ∀ n x, Ev.regRes n x ∈ es → n ∈ σ.qReg) : Asked c σ' := by
  intro n hn
  have : n ∈ σ.qReg ∨ ∃ x, Ev.regRes n x ∈ σ.log := by
    rcases hn with hn | ⟨x, hn⟩
    · exact .inl (hq n hn)
    · rw [hl, List.mem_append] at hn
      exact hn.elim (fun h => .inl (he n x h)) (fun h => .inr ⟨x, h⟩)
  obtain ⟨a, h1, h2⟩ := h n this
  exact ⟨a, h1, by rw [hl]; simp [h2]⟩

theorem rm_le {l : List Nat} {n m : Nat} (h : m ∈ rm l n) : m ∈ l := List.mem_of_mem_erase h

theorem asked_step (hu : Uniq σ) (hd : D c σ) (h : Asked c σ) (m : M c σ σ') : Asked c σ' := by
  cases m
  case confL hc hs hi e =>
    obtain ⟨srv', b, e1, -⟩ := links_spec e
    subst e1
    exact h.plain (es := (c.links.map (fun a => Ev.linkReq a .user)).reverse) rfl (fun n => id) (fun n x => by simp)
  case confR hc hs hi hl e =>
    obtain ⟨regs', disc', e1, e2, e3, e4, -⟩ := wants_spec e
    subst e1
    rcases linkedTo_cases c c.wants { σ with confR := true } with ⟨e, -⟩ | ⟨f1, f2, e⟩
    · rw [e]; exact h.plain (es := []) rfl (fun n => id) (fun n x => by simp)
    · rw [e]; exact h.plain (es := [_]) rfl (fun n => id) (fun n x => by simp)
  case regOk n r hq hr => exact h.plain (es := [_]) rfl (fun n => rm_le) (fun m x => by simp; rintro rfl -; exact hq)
  case regErr n r hq hr hi => exact h.plain (es := [_, _]) rfl (fun n => rm_le) (fun m x => by simp; rintro rfl -; exact hq)
  case alias n a t names hq ht hs ha =>
    exact h.plain (es := foundEv n t a ++ [.discRes n (some a)]) (by simp) (fun n => id) (fun n x => by simp [mem_foundEv])
  case found n a t hq ht hs ha hr =>
    exact h.plain (es := .linkReq a (.task n) :: (foundEv n t a ++ [.discRes n (some a)])) (by simp) (fun n => id) (fun n x => by simp [mem_foundEv])
  case foundDown n a t d hq hfd hdk ht hs =>
    exact h.plain (es := foundEv n t a ++ [.discRes n (some a)]) (by simp) (fun n => id) (fun n x => by simp [mem_foundEv])
  case linkTask a n r t names hq hr hcb ht hn hall hst =>
    exact h.plain (es := callEvs σ true names ++ [.linkRes a true]) (by simp) (fun n => id) (fun n => by simp [mem_callEvs])
  case linkTaskDown a n r t names hq hr hcb ht hn hall hst =>
    exact h.plain (es := callEvs σ true names ++ [.linkRes a true]) (by simp) (fun n => id) (fun n => by simp [mem_callEvs])
  case linkTaskErr a n r t names hq hr hcb ht hn hall hst =>
    refine h.plain (es := (if σ.st = .initializing then [.answer false] else []) ++ (callEvs σ false names ++ [.linkRes a false])) (by simp)
      (fun n => id) (fun n => ?_)
    split <;> simp [mem_callEvs]
  case linkErr a r hq hr hcb =>
    refine h.plain (es := (if σ.initReq then [.answer false] else []) ++ [.linkRes a false]) (by simp) (fun n => id) (fun n => ?_)
    split <;> simp
  case linkReg a r hq hr hcb =>
    intro n hn
    by_cases hk : n ∈ σ.regs.keys
    · obtain ⟨r, hf⟩ := mem_keys.1 hk
      refine ⟨r.a, (hd.d0 n r hf).1, ?_⟩
      simp only [mem_linkLog]
      exact .inr (.inl ⟨n, r, rfl, AMap.mem_of_find hf⟩)
    · have : n ∈ σ.qReg ∨ ∃ x, Ev.regRes n x ∈ σ.log := by
        rcases hn with hn | ⟨x, hn⟩
        · simp only [onLink, if_true, List.mem_append] at hn
          exact hn.elim .inl (fun h => absurd h hk)
        · simp only [mem_linkLog] at hn
          right
          refine ⟨x, ?_⟩
          simpa using hn
      obtain ⟨a', h1, h2⟩ := h n this
      refine ⟨a', h1, ?_⟩
      simp only [mem_linkLog]
      exact .inr (.inr (by simp [h2]))
  case names hs hr hd' =>
    refine h.plain (es := ((σ.disc.filter (fun p : Nat × Task => waits p.2)).map (fun p : Nat × Task => Ev.cancel p.1)).reverse ++
      ((σ.regs.filter (fun p : Nat × Reg => decide (p.2.st = RegSt.operational))).map (fun p : Nat × Reg => Ev.dereg p.1)).reverse)
      (by simp [shutNames]) (fun n => id) (fun n => by simp)
  case namesEnd hs hr hd' =>
    refine h.plain (es := ((σ.disc.filter (fun p : Nat × Task => waits p.2)).map (fun p : Nat × Task => Ev.cancel p.1)).reverse ++
      ((σ.regs.filter (fun p : Nat × Reg => decide (p.2.st = RegSt.operational))).map (fun p : Nat × Reg => Ev.dereg p.1)).reverse)
      (by simp [shutNames]) (fun n => id) (fun n => by simp)
  case finI hs _ _ _ => exact h.plain (es := [.answer true]) rfl (fun n => id) (fun n => by simp)
  case lostInit n t hq ht hs hi => exact h.plain (es := [.answer false, .discRes n none]) rfl (fun n => id) (fun n => by simp)
  case lostDown n t hq ht hs => exact h.plain (es := [.discRes n none]) rfl (fun n => id) (fun n => by simp)
  case linkUser a r hq hr hcb => exact h.plain (es := [.linkRes a true]) rfl (fun n => id) (fun n => by simp)
  case failReset hi => exact h.plain (es := [.answer false]) rfl (fun n => id) (fun n => by simp)
  case shut hs => exact h.plain (es := [.shut]) rfl (fun n => id) (fun n => by simp)
  case dropReg => exact h.plain (es := []) rfl (fun n => rm_le) (fun n => by simp)
  all_goals exact h.plain (es := []) rfl (fun n => id) (fun n => by simp)

theorem hasReg_iff : hasRegistering σ = false ↔ ∀ p, p ∈ σ.regs → p.2.st ≠ .registering := by
  unfold hasRegistering; simp

theorem op_of {r : Reg} (h : r.st ≠ .registering) : r.st = .operational := by
  cases e : r.st <;> simp_all

/-- an initialization that has not failed: what was asked for is pending or done -/
structure J (c : Conf) (σ : State) : Prop where
  i1 : σ.st = .initializing → σ.confL = true → σ.initReq = true ∨ Ev.answer false ∈ σ.log
  j1 : σ.st = .initializing → σ.confR = true → Ev.answer false ∉ σ.log → ∀ n v d b, .disc n v d b ∈ c.wants →
    (∃ t, σ.disc.find n = some t) ∨ ∃ a, Ev.discRes n (some a) ∈ σ.log ∧ Ev.linkRes a true ∈ σ.log
  j2 : σ.st = .initializing → σ.confR = true → Ev.answer false ∉ σ.log → ∀ n a, .reg n a ∈ c.wants → ∃ r, σ.regs.find n = some r
  j3 : σ.st = .initializing → σ.confL = true → Ev.answer false ∉ σ.log → ∀ a, a ∈ c.links → a ∈ σ.qLink ∨ Ev.linkRes a true ∈ σ.log
  j4 : σ.st = .initializing → σ.rInitR = false → σ.disc = [] ∧ ∀ n r, σ.regs.find n = some r → r.st ≠ .registering
  j5 : Sound c σ.log

theorem J_init : J c State.init := by
  constructor <;> simp [State.init, Sound]

/-- when nothing is pending -/
theorem all_done (hg : c.Good) (hb : Base σ) (ha : Asked c σ) (hd : D c σ) (h : J c σ) (hs : σ.st = .initializing) (h1 : σ.rInitL = false)
    (h2 : σ.rInitR = false) (hf : Ev.answer false ∉ σ.log) : AllDone c σ.log := by
  obtain ⟨e1, e2⟩ := h.j4 hs h2
  have hc := hb.rr h2
  refine ⟨fun n a hw => ?_, fun n v d b hw => ?_, fun a hl => ?_⟩
  · obtain ⟨r, hr⟩ := h.j2 hs hc hf n a hw
    have := op_of (e2 n r hr)
    obtain ⟨ra, rs⟩ := r
    simp only at this; subst this
    have h3 := hd.d1 n ra hr
    obtain ⟨a', h4, h5⟩ := ha n (.inr ⟨_, h3⟩)
    rw [hg.2 n a a' hw h4]
    exact ⟨h5, h3⟩
  · rcases h.j1 hs hc hf n v d b hw with ⟨t, h3⟩ | h3
    · rw [e1] at h3; cases h3
    · exact h3
  · rcases h.j3 hs (hb.cr hc) hf a hl with h3 | h3
    · obtain ⟨cb, h4⟩ := hb.pend a h3
      have := (hb.on hs a cb h4).1
      rw [h1] at this; cases this
    · exact h3

/-- a step out of an initialization, or after a failure -/
theorem J.off {es : List Ev} (h : J c σ) (hl : σ'.log = es ++ σ.log) (he : .answer true ∉ es)
    (hs : σ'.st ≠ .initializing ∨ (.answer false ∈ σ'.log ∧ (σ'.rInitR = false → σ'.disc = [] ∧ ∀ n r, σ'.regs.find n = some r → r.st ≠ .registering))) :
    J c σ' := by
  have := h.j5.append he
  rw [← hl] at this
  rcases hs with hs | ⟨hs, hh⟩
  · exact ⟨fun h => absurd h hs, fun h => absurd h hs, fun h => absurd h hs, fun h => absurd h hs, fun h => absurd h hs, this⟩
  · exact ⟨fun _ _ => .inr hs, fun _ _ h => absurd hs h, fun _ _ h => absurd hs h, fun _ _ h => absurd hs h, fun _ => hh, this⟩

/-- a step in which only the log grows -/
theorem J.mono {es : List Ev} (h : J c σ) (hl : σ'.log = es ++ σ.log) (he : .answer true ∉ es) (hs : σ'.st = σ.st)
    (h1 : σ.confL = true → σ.initReq = true → σ'.initReq = true ∨ .answer false ∈ es) (h2 : σ'.confL = σ.confL) (h3 : σ'.confR = σ.confR)
    (h4 : σ.st = .initializing → ∀ n, (∃ t, σ.disc.find n = some t) → .answer false ∈ es ∨
      (∃ t, σ'.disc.find n = some t) ∨ ∃ a, Ev.discRes n (some a) ∈ σ'.log ∧ Ev.linkRes a true ∈ σ'.log)
    (h5 : σ.st = .initializing → ∀ n r, σ.regs.find n = some r → .answer false ∈ es ∨ ∃ r', σ'.regs.find n = some r')
    (h6 : σ.st = .initializing → ∀ a, a ∈ σ.qLink → .answer false ∈ es ∨ a ∈ σ'.qLink ∨ .linkRes a true ∈ es)
    (h7 : σ'.st = .initializing → σ'.rInitR = false → σ'.disc = [] ∧ ∀ n r, σ'.regs.find n = some r → r.st ≠ .registering) : J c σ' := by
  have h8 := h.j5.append he
  rw [← hl] at h8
  have hm : ∀ e, e ∈ σ'.log ↔ e ∈ es ∨ e ∈ σ.log := fun e => by rw [hl, List.mem_append]
  obtain ⟨i1, j1, j2, j3, j4, -⟩ := h
  refine ⟨?_, ?_, ?_, ?_, h7, h8⟩
  · intro g1 g2
    rw [hm]
    rcases i1 (hs ▸ g1) (h2 ▸ g2) with h | h
    · rcases h1 (h2 ▸ g2) h with h | h
      · exact .inl h
      · exact .inr (.inl h)
    · exact .inr (.inr h)
  · intro g1 g2 g3 n v d b hw
    rw [hm, not_or] at g3
    rcases j1 (hs ▸ g1) (h3 ▸ g2) g3.2 n v d b hw with h | ⟨a, h, h'⟩
    · exact (h4 (hs ▸ g1) n h).resolve_left g3.1
    · exact .inr ⟨a, (hm _).2 (.inr h), (hm _).2 (.inr h')⟩
  · intro g1 g2 g3 n a hw
    rw [hm, not_or] at g3
    obtain ⟨r, hr⟩ := j2 (hs ▸ g1) (h3 ▸ g2) g3.2 n a hw
    exact (h5 (hs ▸ g1) n r hr).resolve_left g3.1
  · intro g1 g2 g3 a ha
    rw [hm, not_or] at g3
    rw [hm]
    rcases j3 (hs ▸ g1) (h2 ▸ g2) g3.2 a ha with h | h
    · rcases (h6 (hs ▸ g1) a h).resolve_left g3.1 with h | h
      · exact .inl h
      · exact .inr (.inl h)
    · exact .inr (.inr h)

theorem keep_link {l : List Nat} {a x : Nat} (h : x ∈ l) : x ∈ rm l a ∨ x = a := by
  by_cases hx : x = a
  · exact .inr hx
  · exact .inl ((List.mem_erase_of_ne hx).2 h)

theorem J.step (hg : c.Good) (hb : Base σ) (hk : K c σ) (hd : D c σ) (ha : Asked c σ) (h : J c σ) (m : M c σ σ') : J c σ' := by
  have k : ∀ n t, σ.rInitR = false → σ.disc.find n = some t → ¬ σ.st = .initializing := by
    intro n t h1 h2 h3
    rw [(h.j4 h3 h1).1] at h2; cases h2
  cases m
  case confL hc hs hi e =>
    obtain ⟨srv', b, e1, e2, e3, e4, e5, e6⟩ := links_spec e
    subst e1
    have hcr : σ.confR = false := by
      cases e : σ.confR
      · rfl
      · have := hb.cr e; rw [hc] at this; cases this
    refine ⟨fun _ _ => .inl hi, fun _ h => ?_, fun _ h => ?_, fun _ _ _ a ha => .inl (by simp [ha]), fun _ h => ?_, h.j5.append (by simp)⟩
    · simp only at h; rw [hcr] at h; cases h
    · simp only at h; rw [hcr] at h; cases h
    · have := hb.rr h; rw [hcr] at this; cases this
  case confR hc hs hi hl e =>
    obtain ⟨regs', disc', e1, e2, e3, e4, -⟩ := wants_spec e
    have hri : σ.rInitR = true := by
      cases e : σ.rInitR
      · have := hb.rr e; rw [hc] at this; cases this
      · rfl
    have hj3 := h.j3 hs hl
    have hj5 := h.j5
    subst e1
    rcases linkedTo_cases c c.wants { σ with confR := true } with ⟨e, -⟩ | ⟨f1, f2, e⟩
    · rw [e]
      refine ⟨fun _ _ => .inl hi, fun _ _ _ n v d b hw => .inl ⟨⟨v, d, b, .passive⟩, (e3 _ _).2 (.inr ⟨v, d, b, hw, rfl⟩)⟩,
        fun _ _ _ n a hw => ⟨⟨a, .registering⟩, (e4 _ _).2 (.inr ⟨a, hw, rfl⟩)⟩, fun _ _ => hj3, fun _ h => ?_, hj5⟩
      simp only at h; rw [hri] at h; cases h
    · rw [e]
      refine ⟨fun _ _ => .inl hi, fun _ _ _ n v d b hw => .inl ⟨⟨v, d, b, .passive⟩, (e3 _ _).2 (.inr ⟨v, d, b, hw, rfl⟩)⟩,
        fun _ _ _ n a hw => ⟨⟨a, .registering⟩, (e4 _ _).2 (.inr ⟨a, hw, rfl⟩)⟩, fun _ _ hf a ha => ?_, fun _ h => ?_, hj5.append (es := [_]) (by simp)⟩
      · simp only [List.mem_cons, reduceCtorEq, false_or] at hf
        rcases hj3 hf a ha with h | h
        · exact .inl (by simp [h])
        · exact .inr (by simp [h])
      · simp only at h; rw [hri] at h; cases h
  case recvInit h1 h2 =>
    exact h.mono (es := []) rfl (by simp) rfl (fun _ _ => .inl rfl) rfl rfl (fun _ _ h => .inr (.inl h)) (fun _ _ r h => .inr ⟨r, h⟩)
      (fun _ _ h => .inr (.inl h)) h.j4
  case offL h1 h2 =>
    exact h.mono (es := []) rfl (by simp) rfl (fun _ h => .inl h) rfl rfl (fun _ _ h => .inr (.inl h)) (fun _ _ r h => .inr ⟨r, h⟩)
      (fun _ _ h => .inr (.inl h)) h.j4
  case offR h1 h2 h3 =>
    exact h.mono (es := []) rfl (by simp) rfl (fun _ h => .inl h) rfl rfl (fun _ _ h => .inr (.inl h)) (fun _ _ r h => .inr ⟨r, h⟩)
      (fun _ _ h => .inr (.inl h)) (fun _ _ => ⟨h2, fun n r hf => hasReg_iff.1 h3 _ (AMap.mem_of_find hf)⟩)
  case finI hs hi h1 h2 =>
    refine ⟨fun h => ?_, fun h => ?_, fun h => ?_, fun h => ?_, fun h => ?_, ⟨fun _ hf => all_done hg hb ha hd h hs h1 h2 hf, h.j5⟩⟩ <;> cases h
  case regOk n r hq hr =>
    refine h.mono (es := [_]) rfl (by simp) rfl (fun _ h => .inl h) rfl rfl (fun _ _ h => .inr (.inl h)) (fun _ m r' h => ?_)
      (fun _ _ h => .inr (.inl h)) (fun g1 g2 => ⟨(h.j4 g1 g2).1, fun m r' hf => ?_⟩)
    · right; simp only [AMap.find_set]; split
      · exact ⟨_, rfl⟩
      · exact ⟨_, h⟩
    · simp only [AMap.find_set] at hf
      split at hf
      · cases hf; simp
      · exact (h.j4 g1 g2).2 m r' hf
  case regErr n r hq hr hi =>
    by_cases hs : σ.st = .initializing
    · refine h.off (es := [_, _]) rfl (by simp) (.inr ⟨by simp, fun g => ⟨(h.j4 hs g).1, fun m r' hf => ?_⟩⟩)
      simp only [AMap.find_erase] at hf
      split at hf
      · cases hf
      · exact (h.j4 hs g).2 m r' hf
    · exact h.off (es := [_, _]) rfl (by simp) (.inl hs)
  case alias n a t names hq ht hs ha' =>
    exact h.mono (es := foundEv n t a ++ [.discRes n (some a)]) (by simp) (by simp [mem_foundEv]) rfl (fun _ h => .inl h) rfl rfl
      (fun _ _ h => .inr (.inl h)) (fun _ _ r h => .inr ⟨r, h⟩) (fun _ _ h => .inr (.inl h)) h.j4
  case found n a t hq ht hs ha' hr =>
    exact h.mono (es := .linkReq a (.task n) :: (foundEv n t a ++ [.discRes n (some a)])) (by simp) (by simp [mem_foundEv]) rfl (fun _ h => .inl h) rfl rfl
      (fun _ _ h => .inr (.inl h)) (fun _ _ r h => .inr ⟨r, h⟩) (fun _ _ h => .inr (.inl (by simp [h]))) h.j4
  case foundDown n a t d hq hfd hdk ht hs =>
    exact h.off (es := foundEv n t a ++ [.discRes n (some a)]) (by simp) (by simp [mem_foundEv]) (.inl (by assumption))
  case lostInit n t hq ht hs hi =>
    exact h.off (es := [_, _]) rfl (by simp) (.inr ⟨by simp, fun g => absurd hs (k n t g ht)⟩)
  case lostDown n t hq ht hs => exact h.off (es := [_]) rfl (by simp) (.inl hs)
  case linkUser a r hq hr hcb =>
    exact h.mono (es := [_]) rfl (by simp) rfl (fun _ h => .inl h) rfl rfl (fun _ _ h => .inr (.inl h)) (fun _ _ r h => .inr ⟨r, h⟩)
      (fun _ x h => .inr ((keep_link h).imp id (fun h => by simp [h]))) h.j4
  case linkReg a r hq hr hcb =>
    refine h.mono (es := (σ.disc.map (fun p : Nat × Task => Ev.discover p.1 p.2.delayed)).reverse ++
        ((σ.regs.map (fun p : Nat × Reg => Ev.register p.1 p.2.a)).reverse ++ [.linkRes a true])) (by simp [onLink]) (by simp) rfl (fun _ h => .inl h) rfl rfl
      (fun _ n ⟨t, h⟩ => .inr (.inl ⟨t.going, (go_find _ _ _).2 ⟨t, h, rfl⟩⟩)) (fun _ _ r h => .inr ⟨r, h⟩)
      (fun _ x h => .inr ((keep_link h).imp id (fun h => by simp [h]))) (fun g1 g2 => ⟨?_, (h.j4 g1 g2).2⟩)
    simp only [onLink, if_true]
    rw [(h.j4 g1 g2).1]; rfl
  case linkTask a n r t names hq hr hcb ht hn hall hst =>
    obtain ⟨op, cb⟩ := r
    simp only at hcb; subst hcb
    have e1 := hk.k2 _ _ _ hr
    have e2 := hk.k3 _ _ _ ht e1
    have hn' := hn
    rw [e2] at hn
    obtain ⟨a', f1, f2⟩ := hk.k1 _ _ hn
    cases f1
    refine h.mono (es := callEvs σ true names ++ [.linkRes a true]) (by simp) (by simp [mem_callEvs]) rfl (fun _ h => .inl h) rfl rfl
      (fun _ m h => .inr ?_) (fun _ _ r h => .inr ⟨r, h⟩) (fun _ x h => .inr ((keep_link h).imp id (fun h => by simp [h])))
      (fun g1 g2 => absurd hst (k n t g2 ht))
    simp only [erase_find, hn']
    by_cases hm : m ∈ names
    · exact .inr ⟨a, by simp [f2 m hm], by simp⟩
    · left; simp only [hm, if_false]; exact h
  case linkTaskDown a n r t names hq hr hcb ht hn hall hst =>
    exact h.off (es := callEvs σ true names ++ [.linkRes a true]) (by simp) (by simp [mem_callEvs]) (.inl hst)
  case linkTaskErr a n r t names hq hr hcb ht hn hall hst =>
    by_cases hs : σ.st = .initializing
    · exact h.off (es := .answer false :: (callEvs σ false names ++ [.linkRes a false])) (by simp [hs]) (by simp [mem_callEvs])
        (.inr ⟨by simp [hs], fun g => absurd hs (k n t g ht)⟩)
    · exact h.off (es := callEvs σ false names ++ [.linkRes a false]) (by simp [hs]) (by simp [mem_callEvs]) (.inl hs)
  case setOp a r hs hr hn => exact h.off (es := []) rfl (by simp) (.inl hs)
  case linkErr a r hq hr hcb =>
    by_cases hs : σ.st = .initializing
    · obtain ⟨cb, h1⟩ := hb.pend a hq
      have h2 := (hb.on hs a cb h1).2.1
      refine h.off (es := (if σ.initReq then [.answer false] else []) ++ [.linkRes a false]) (by simp) (by split <;> simp) (.inr ⟨?_, h.j4 hs⟩)
      rcases h.i1 hs h2 with h | h
      · simp [h]
      · simp [h]
    · exact h.off (es := (if σ.initReq then [.answer false] else []) ++ [.linkRes a false]) (by simp) (by split <;> simp) (.inl hs)
  case failReset hi =>
    by_cases hs : σ.st = .initializing
    · exact h.off (es := [_]) rfl (by simp) (.inr ⟨by simp, h.j4 hs⟩)
    · exact h.off (es := [_]) rfl (by simp) (.inl hs)
  case shut hs => exact h.off (es := [_]) rfl (by simp) (.inl (by simp))
  case names hs hr hd' =>
    exact h.off (es := ((σ.disc.filter (fun p : Nat × Task => waits p.2)).map (fun p : Nat × Task => Ev.cancel p.1)).reverse ++
      ((σ.regs.filter (fun p : Nat × Reg => decide (p.2.st = RegSt.operational))).map (fun p : Nat × Reg => Ev.dereg p.1)).reverse)
      (by simp [shutNames]) (by simp) (.inl (by simp [shutNames, hs]))
  case namesEnd hs hr hd' =>
    exact h.off (es := ((σ.disc.filter (fun p : Nat × Task => waits p.2)).map (fun p : Nat × Task => Ev.cancel p.1)).reverse ++
      ((σ.regs.filter (fun p : Nat × Reg => decide (p.2.st = RegSt.operational))).map (fun p : Nat × Reg => Ev.dereg p.1)).reverse)
      (by simp [shutNames]) (by simp) (.inl (by simp [shutNames, hs]))
  case client b hs hr => exact h.off (es := []) rfl (by simp) (.inl (by simp [hs]))
  case clientEnd hs hr => exact h.off (es := []) rfl (by simp) (.inl (by simp [hs]))
  case finish hs hl => exact h.off (es := []) rfl (by simp) (.inl (by simp))
  case start hs => exact h.off (es := []) rfl (by simp) (.inl (by simp))
  case dropReg n hs => exact h.off (es := []) rfl (by simp) (.inl (by simp [hs]))
  case dropDisc n hs => exact h.off (es := []) rfl (by simp) (.inl (by simp [hs]))
  case dropLink n hs => exact h.off (es := []) rfl (by simp) (.inl (by simp [hs]))
  case forget a r h1 h2 =>
    exact h.mono (es := []) rfl (by simp) rfl (fun _ h => .inl h) rfl rfl (fun _ _ h => .inr (.inl h)) (fun _ _ r h => .inr ⟨r, h⟩)
      (fun _ _ h => .inr (.inl h)) h.j4

end Verif.RegPlugin
