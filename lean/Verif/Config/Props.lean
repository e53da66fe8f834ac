import Verif.Config.Spec

/-! # Property C48: only well-formed configurations create actors -/

namespace Verif.Config

/-- the builder after a sequence of setter calls -/
def apply (b : Builder) (ss : List Setter) : Builder := ss.foldl Builder.set b

theorem shl_getLsbD (i k : Nat) (hk : k < 32) : (1#32 <<< i).getLsbD k = decide (k = i) := by
  rw [BitVec.getLsbD_shiftLeft]
  simp only [hk, decide_true, Bool.true_and]
  by_cases h : k < i
  · have : k ≠ i := by omega
    simp [h, this]
  · by_cases he : k = i
    · subst he; simp
    · simp only [h, he, decide_false, Bool.not_false, Bool.true_and]
      have : k - i ≠ 0 := by omega
      simp [BitVec.getLsbD_one, this]

/-- which bits a setter clears -/
def clears (k : Nat) : Setter → Bool
  | .timeout _ => k == 0 || k == 1
  | .initTimeout _ => k == 0
  | .shutdownTimeout _ => k == 1
  | .extra i => k == i
  | _ => false

theorem set_bit (b : Builder) (s : Setter) (k : Nat) (hk : k < 32) :
    (b.set s).mask.getLsbD k = (b.mask.getLsbD k && !clears k s) := by
  cases s <;>
    simp only [Builder.set, clears, BitVec.getLsbD_and, BitVec.getLsbD_not, initBit, shutdownBit, shl_getLsbD _ _ hk,
      hk, decide_true, Bool.true_and, Bool.not_false, Bool.and_true]
  · cases b.mask.getLsbD k <;> by_cases h0 : k = 0 <;> by_cases h1 : k = 1 <;> simp [h0, h1]
  · by_cases h0 : k = 0 <;> simp [h0]
  · by_cases h0 : k = 1 <;> simp [h0]
  · rename_i i; by_cases h0 : k = i <;> simp [h0]

theorem apply_bit (ss : List Setter) (b : Builder) (k : Nat) (hk : k < 32) :
    (apply b ss).mask.getLsbD k = (b.mask.getLsbD k && !ss.any (clears k)) := by
  induction ss generalizing b with
  | nil => simp [apply]
  | cons s ss ih =>
    have : apply b (s :: ss) = apply (b.set s) ss := rfl
    rw [this, ih, set_bit b s k hk]
    simp [Bool.and_assoc]

theorem requirements_bit (extra : List Nat) (k : Nat) (hk : k < 32) :
    (requirements extra).getLsbD k = (k == 0 || k == 1 || extra.contains k) := by
  unfold requirements
  have gen : ∀ (m : BitVec 32), (extra.foldl (fun m i => m ||| (1#32 <<< i)) m).getLsbD k = (m.getLsbD k || extra.contains k) := by
    induction extra with
    | nil => intro m; simp
    | cons i extra ih =>
      intro m
      simp only [List.foldl_cons, ih, BitVec.getLsbD_or, shl_getLsbD i k hk, List.contains_cons]
      by_cases h : k = i
      · simp [h]
      · have : (k == i) = false := by simp [h]
        simp [h, this]
  rw [gen, BitVec.getLsbD_or, initBit, shutdownBit, shl_getLsbD _ _ hk, shl_getLsbD _ _ hk]
  by_cases h0 : k = 0 <;> by_cases h1 : k = 1 <;> simp [h0, h1]

theorem mask_zero_iff (extra : List Nat) (ss : List Setter) (he : ∀ i ∈ extra, 2 ≤ i ∧ i < 32)
    (hs : ∀ i, Setter.extra i ∈ ss → i ∈ extra) :
    (apply (Builder.new extra) ss).mask = 0#32 ↔ complete extra ss := by
  have hbit : ∀ k, k < 32 → (apply (Builder.new extra) ss).mask.getLsbD k =
      ((k == 0 || k == 1 || extra.contains k) && !ss.any (clears k)) := by
    intro k hk; rw [apply_bit _ _ _ hk]; simp only [Builder.new]; rw [requirements_bit _ _ hk]
  have hzero : (apply (Builder.new extra) ss).mask = 0#32 ↔
      ∀ k, k < 32 → ((k == 0 || k == 1 || extra.contains k) = true → ss.any (clears k) = true) := by
    constructor
    · intro h k hk hreq
      have := hbit k hk
      rw [h] at this
      simp only [BitVec.getLsbD_zero] at this
      rw [hreq] at this
      simpa using this.symm
    · intro h
      apply BitVec.eq_of_getLsbD_eq
      intro k hk
      rw [hbit k hk, BitVec.getLsbD_zero]
      cases hr : (k == 0 || k == 1 || extra.contains k)
      · rfl
      · rw [h k hk hr]; rfl
  rw [hzero]
  have any_iff : ∀ (f g : Setter → Bool), (∀ s ∈ ss, f s = g s) → (ss.any f = true ↔ ∃ s ∈ ss, g s = true) := by
    intro f g hfg
    simp only [List.any_eq_true]
    constructor
    · rintro ⟨s, h1, h2⟩; exact ⟨s, h1, by rw [← hfg s h1]; exact h2⟩
    · rintro ⟨s, h1, h2⟩; exact ⟨s, h1, by rw [hfg s h1]; exact h2⟩
  have c0 : ss.any (clears 0) = true ↔ ∃ s ∈ ss, givesInit s = true := by
    apply any_iff
    intro s hmem
    cases s <;> simp [clears, givesInit]
    rename_i i; have := he i (hs i hmem); omega
  have c1 : ss.any (clears 1) = true ↔ ∃ s ∈ ss, givesShutdown s = true := by
    apply any_iff
    intro s hmem
    cases s <;> simp [clears, givesShutdown]
    rename_i i; have := he i (hs i hmem); omega
  have ck : ∀ k ∈ extra, (ss.any (clears k) = true ↔ ∃ s ∈ ss, givesExtra k s = true) := by
    intro k hk
    have := he k hk
    apply any_iff
    intro s _
    have h0 : k ≠ 0 := by omega
    have h1 : k ≠ 1 := by omega
    cases s <;> simp [clears, givesExtra, h0, h1]
  constructor
  · intro h
    refine ⟨c0.1 (h 0 (by omega) rfl), c1.1 (h 1 (by omega) rfl), fun i hi => (ck i hi).1 (h i (he i hi).2 ?_)⟩
    simp [hi]
  · rintro ⟨h0, h1, h2⟩ k hk hreq
    simp only [Bool.or_eq_true, beq_iff_eq, List.contains_iff_mem] at hreq
    rcases hreq with (rfl | rfl) | hreq
    · exact c0.2 h0
    · exact c1.2 h1
    · exact (ck k hreq).2 (h2 k hreq)

theorem apply_lastOf {α : Type} (proj : Cfg → α) (f : Setter → Option α)
    (h : ∀ (b : Builder) (s : Setter), proj (b.set s).config = (f s).getD (proj b.config)) (ss : List Setter) (b : Builder) :
    proj (apply b ss).config = lastOf f (proj b.config) ss := by
  induction ss generalizing b with
  | nil => rfl
  | cons s ss ih =>
    have : apply b (s :: ss) = apply (b.set s) ss := rfl
    rw [this, ih, h]; rfl

theorem apply_extra (i : Nat) (ss : List Setter) (b : Builder) :
    (apply b ss).config.extra i = true ↔ b.config.extra i = true ∨ Setter.extra i ∈ ss := by
  induction ss generalizing b with
  | nil => simp [apply]
  | cons s ss ih =>
    have : apply b (s :: ss) = apply (b.set s) ss := rfl
    rw [this, ih, List.mem_cons]
    cases s with
    | extra j =>
      by_cases h : i = j
      · subst h; simp [Builder.set]
      · simp [Builder.set, h]
    | _ => simp [Builder.set]

theorem contradictory_iff (extra : List Nat) (ss : List Setter) :
    ((apply (Builder.new extra) ss).config.registryAddress.isSome = true ∧
      (apply (Builder.new extra) ss).config.createRegistry = true) ↔ contradictory ss := by
  rw [apply_lastOf (·.registryAddress) (fun | .registryAddress a => some a | _ => none) (by intro b s; cases s <;> rfl),
    apply_lastOf (·.createRegistry) (fun | .createRegistry b => some b | _ => none) (by intro b s; cases s <;> rfl)]
  rfl

theorem validateActor_iff (extra : List Nat) (ss : List Setter) (he : ∀ i ∈ extra, 2 ≤ i ∧ i < 32)
    (hs : ∀ i, Setter.extra i ∈ ss → i ∈ extra) :
    (apply (Builder.new extra) ss).validateActor = true ↔ complete extra ss := by
  rw [← mask_zero_iff extra ss he hs]
  unfold Builder.validateActor
  split <;> simp_all

theorem validateSup_iff (extra : List Nat) (ss : List Setter) (he : ∀ i ∈ extra, 2 ≤ i ∧ i < 32)
    (hs : ∀ i, Setter.extra i ∈ ss → i ∈ extra) :
    (apply (Builder.new extra) ss).validateSup = true ↔ complete extra ss ∧ ¬ contradictory ss := by
  rw [← validateActor_iff extra ss he hs, ← contradictory_iff extra ss]
  unfold Builder.validateSup
  generalize (apply (Builder.new extra) ss).validateActor = v
  generalize (apply (Builder.new extra) ss).config.registryAddress = ra
  generalize (apply (Builder.new extra) ss).config.createRegistry = cr
  cases v <;> cases ra <;> cases cr <;> simp

/-- **C48.** For every back-end (its required settings `extra`) and every sequence of builder calls,
`finish()` creates exactly one actor if and only if all required settings were given and, for a
supervisor, the registry settings do not contradict each other; the actor gets every setting as it was given
last, and the default where it was not given.  Otherwise nothing is created and `actor_misconfigured` is reported. -/
theorem C48_wellformed_creates (extra : List Nat) (ss : List Setter) (he : ∀ i ∈ extra, 2 ≤ i ∧ i < 32)
    (hs : ∀ i, Setter.extra i ∈ ss → i ∈ extra) (c : Ctx) (isSup : Bool) :
    ((complete extra ss ∧ (isSup = true → ¬ contradictory ss)) →
      ∃ cfg, finishActor c (apply (Builder.new extra) ss) isSup =
          ({ c with built := c.built ++ [cfg] }, some c.built.length) ∧
        cfg.initTimeout = lastOf (fun | .timeout t => some t | .initTimeout t => some t | _ => none) 0 ss ∧
        cfg.shutdownTimeout = lastOf (fun | .timeout t => some t | .shutdownTimeout t => some t | _ => none) 0 ss ∧
        cfg.escalateFailure = lastOf (fun | .escalateFailure b => some b | _ => none) false ss ∧
        cfg.autoshutdownSupervisor = lastOf (fun | .autoshutdownSupervisor b => some b | _ => none) false ss ∧
        cfg.spawnerAddress = lastOf (fun | .spawnerAddress a => some a | _ => none) none ss ∧
        cfg.createRegistry = lastOf (fun | .createRegistry b => some b | _ => none) false ss ∧
        cfg.synchronizeStart = lastOf (fun | .synchronizeStart b => some b | _ => none) false ss ∧
        cfg.registryAddress = lastOf (fun | .registryAddress a => some a | _ => none) none ss ∧
        ∀ i, cfg.extra i = true ↔ Setter.extra i ∈ ss) ∧
    (¬ (complete extra ss ∧ (isSup = true → ¬ contradictory ss)) →
      finishActor c (apply (Builder.new extra) ss) isSup =
        ({ c with errors := c.errors ++ [.actorMisconfigured] }, none)) := by
  have hv : (if isSup then (apply (Builder.new extra) ss).validateSup else (apply (Builder.new extra) ss).validateActor) = true ↔
      (complete extra ss ∧ (isSup = true → ¬ contradictory ss)) := by
    cases isSup
    · simp [validateActor_iff extra ss he hs]
    · simp [validateSup_iff extra ss he hs]
  constructor
  · intro h
    refine ⟨(apply (Builder.new extra) ss).config, ?_, ?_, ?_, ?_, ?_, ?_, ?_, ?_, ?_, ?_⟩
    · unfold finishActor; rw [hv.2 h]; rfl
    · exact apply_lastOf (·.initTimeout) (fun | .timeout t => some t | .initTimeout t => some t | _ => none)
        (by intro b s; cases s <;> rfl) ss (Builder.new extra)
    · exact apply_lastOf (·.shutdownTimeout) (fun | .timeout t => some t | .shutdownTimeout t => some t | _ => none)
        (by intro b s; cases s <;> rfl) ss (Builder.new extra)
    · exact apply_lastOf (·.escalateFailure) (fun | .escalateFailure b => some b | _ => none)
        (by intro b s; cases s <;> rfl) ss (Builder.new extra)
    · exact apply_lastOf (·.autoshutdownSupervisor) (fun | .autoshutdownSupervisor b => some b | _ => none)
        (by intro b s; cases s <;> rfl) ss (Builder.new extra)
    · exact apply_lastOf (·.spawnerAddress) (fun | .spawnerAddress a => some a | _ => none)
        (by intro b s; cases s <;> rfl) ss (Builder.new extra)
    · exact apply_lastOf (·.createRegistry) (fun | .createRegistry b => some b | _ => none)
        (by intro b s; cases s <;> rfl) ss (Builder.new extra)
    · exact apply_lastOf (·.synchronizeStart) (fun | .synchronizeStart b => some b | _ => none)
        (by intro b s; cases s <;> rfl) ss (Builder.new extra)
    · exact apply_lastOf (·.registryAddress) (fun | .registryAddress a => some a | _ => none)
        (by intro b s; cases s <;> rfl) ss (Builder.new extra)
    · intro i
      rw [apply_extra]
      simp [Builder.new, Cfg.default]
  · intro h
    have : (if isSup then (apply (Builder.new extra) ss).validateSup else (apply (Builder.new extra) ss).validateActor) = false :=
      Bool.eq_false_iff.2 (fun hc => h (hv.1 hc))
    unfold finishActor; rw [this]; rfl

/-- **C48, root.** However many root supervisors are built on one context, with whatever settings, at
most one is ever accepted: the first well-formed one, with its own settings. Those before it were reported as misconfigured, and every
builder after it is refused with an error. -/
theorem C48_one_root (bs : List Builder) (c : Ctx) :
    (∀ r, c.root = some r → ∃ es, bs.foldl (fun c b => (finishRoot c b).1) c = { c with errors := c.errors ++ es } ∧
      es = bs.map (fun b => if b.validateSup then Err.supervisorDefined else Err.actorMisconfigured) ∧
      ∀ b ∈ bs, (finishRoot c b).2 = none) ∧
    (c.root = none → (∀ b ∈ bs, b.validateSup = false) →
      bs.foldl (fun c b => (finishRoot c b).1) c = { c with errors := c.errors ++ List.replicate bs.length .actorMisconfigured }) ∧
    (∀ bs₁ b bs₂, bs = bs₁ ++ b :: bs₂ → c.root = none → (∀ b ∈ bs₁, b.validateSup = false) → b.validateSup = true →
      ∃ es, bs.foldl (fun c b => (finishRoot c b).1) c =
        { root := some c.built.length, built := c.built ++ [b.config],
          errors := c.errors ++ List.replicate bs₁.length .actorMisconfigured ++ es } ∧ es.length = bs₂.length) := by
  have bad : ∀ (bs : List Builder) (c : Ctx), c.root = none → (∀ b ∈ bs, b.validateSup = false) →
      bs.foldl (fun c b => (finishRoot c b).1) c = { c with errors := c.errors ++ List.replicate bs.length .actorMisconfigured } := by
    intro bs
    induction bs with
    | nil => intro c _ _; simp
    | cons b bs ih =>
      intro c h hb
      have h1 : (finishRoot c b).1 = { c with errors := c.errors ++ [.actorMisconfigured] } := by
        unfold finishRoot; rw [hb b List.mem_cons_self]; rfl
      rw [List.foldl_cons, h1, ih { c with errors := c.errors ++ [.actorMisconfigured] } h (fun b' hb' => hb b' (List.mem_cons_of_mem _ hb'))]
      simp [List.replicate_succ]
  have stay : ∀ (bs : List Builder) (c : Ctx) r, c.root = some r → bs.foldl (fun c b => (finishRoot c b).1) c =
      { c with errors := c.errors ++ bs.map (fun b => if b.validateSup then Err.supervisorDefined else Err.actorMisconfigured) } := by
    intro bs
    induction bs with
    | nil => intro c r h; simp
    | cons b bs ih =>
      intro c r h
      have h1 : (finishRoot c b).1 = { c with errors := c.errors ++ [if b.validateSup then Err.supervisorDefined else Err.actorMisconfigured] } := by
        unfold finishRoot; cases b.validateSup <;> simp [h]
      rw [List.foldl_cons, h1, ih { c with errors := c.errors ++ [if b.validateSup then Err.supervisorDefined else Err.actorMisconfigured] } r h]
      simp
  refine ⟨?_, bad bs c, ?_⟩
  · intro r hr
    refine ⟨_, stay bs c r hr, rfl, ?_⟩
    intro b _
    unfold finishRoot
    split
    · rfl
    · rw [hr]
  · rintro bs₁ b bs₂ rfl hr h1 h2
    rw [List.foldl_append, bad bs₁ c hr h1, List.foldl_cons]
    have h3 : (finishRoot { c with errors := c.errors ++ List.replicate bs₁.length .actorMisconfigured } b).1 =
        { root := some c.built.length, built := c.built ++ [b.config],
          errors := c.errors ++ List.replicate bs₁.length .actorMisconfigured } := by
      unfold finishRoot; simp [h2, hr]
    rw [h3, stay bs₂ _ c.built.length rfl]
    exact ⟨_, rfl, by simp⟩

/-- an ev supervisor: loop and ownership are bits 2 and 3 -/
def exSetters : List Setter := [.timeout 5, .createRegistry true, .extra 2, .shutdownTimeout 7, .extra 3, .registryAddress none]

example : (∀ i ∈ [2, 3], 2 ≤ i ∧ i < 32) ∧ (∀ i, Setter.extra i ∈ exSetters → i ∈ [2, 3]) ∧
    complete [2, 3] exSetters ∧ ¬ contradictory exSetters ∧ ¬ complete [2, 3] [.timeout 5, .extra 2] ∧
    contradictory [.timeout 5, .registryAddress (some 4), .createRegistry true] := by
  refine ⟨by simp, ?_, ?_, ?_, ?_, ?_⟩
  · intro i hi; simp [exSetters] at hi; rcases hi with rfl | rfl <;> simp
  · refine ⟨⟨.timeout 5, by simp [exSetters], rfl⟩, ⟨.timeout 5, by simp [exSetters], rfl⟩, ?_⟩
    intro i hi
    simp at hi
    rcases hi with rfl | rfl
    · exact ⟨.extra 2, by simp [exSetters], rfl⟩
    · exact ⟨.extra 3, by simp [exSetters], rfl⟩
  · rintro ⟨h, _⟩; simp [lastOf, exSetters] at h
  · rintro ⟨_, _, h⟩
    obtain ⟨s, h1, h2⟩ := h 3 (by simp)
    simp at h1
    rcases h1 with rfl | rfl <;> simp [givesExtra] at h2
  · constructor <;> rfl

end Verif.Config
