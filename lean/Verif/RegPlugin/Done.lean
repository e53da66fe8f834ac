import Verif.RegPlugin.Log
/-!
# Names on their way: pending, done, or failed
-/

namespace Verif.RegPlugin
open Verif

variable {c : Conf} {σ σ' : State}

/-- how often a name has been given up -/
def deregs (n : Nat) (l : List Ev) : Nat := l.countP (fun e => decide (e = .dereg n))

/-- registrations -/
structure D (c : Conf) (σ : State) : Prop where
  d0 : ∀ n r, σ.regs.find n = some r → .reg n r.a ∈ c.wants ∧ deregs n σ.log = 0
  d1 : ∀ n a, σ.regs.find n = some ⟨a, .operational⟩ → Ev.regRes n true ∈ σ.log
  d2 : ∀ n, Ev.regRes n true ∈ σ.log → (∃ a, σ.regs.find n = some ⟨a, .operational⟩) ∨ deregs n σ.log = 1
  d3 : ∀ n, deregs n σ.log ≤ 1
  d4 : ∀ n, Ev.dereg n ∈ σ.log → Ev.regRes n true ∈ σ.log
  d5 : σ.rShutR = false → σ.regs = []
  d6 : σ.rShutL = false → σ.rShutR = false
  d7 : ∀ n a, σ.regs.find n = some ⟨a, .registering⟩ → Ev.regRes n true ∉ σ.log
  d8 : ∀ n a, Ev.register n a ∈ σ.log → .reg n a ∈ c.wants
  d9 : σ.rShutR = false → 5 ≤ σ.st.rank
  d10 : σ.st = .shutDown → σ.rShutL = false

theorem D_init : D c State.init := by
  constructor <;> simp [State.init, deregs]

theorem count_dereg {σ : State} (hu : σ.regs.keys.Nodup) (n : Nat) :
    (((σ.regs.filter (fun p : Nat × Reg => decide (p.2.st = RegSt.operational))).map (fun p : Nat × Reg => Ev.dereg p.1)).reverse).countP
      (fun e => decide (e = Ev.dereg n)) = match σ.regs.find n with
        | some r => if r.st = .operational then 1 else 0
        | none => 0 := by
  rw [List.countP_reverse]
  generalize σ.regs = l at hu
  induction l with
  | nil => simp
  | cons p l ih =>
    obtain ⟨k, r⟩ := p
    simp only [AMap.keys, List.map_cons, List.nodup_cons] at hu
    have hi := ih hu.2
    simp only [AMap.find, List.filter_cons]
    by_cases hk : k = n
    · subst hk
      have : AMap.find l k = none := (AMap.find_eq_none_iff l k).2 hu.1
      rw [this] at hi
      simp only at hi
      by_cases hr : r.st = RegSt.operational <;> simp [hr, hi]
    · simp only [hk, if_false]
      rw [← hi]
      split <;> simp [hk]

/-- what a step adds to the log does not concern registrations -/
theorem D.plain {es : List Ev} (h : D c σ) (hl : σ'.log = es ++ σ.log) (he : ∀ n, Ev.dereg n ∉ es ∧ (∀ b, Ev.regRes n b ∉ es) ∧ ∀ a, Ev.register n a ∉ es)
    (hr : σ'.regs = σ.regs) (h1 : σ'.rShutR = σ.rShutR) (h2 : σ'.rShutL = false → σ'.rShutR = false) (h3 : σ'.st = .shutDown → σ'.rShutL = false)
    (h4 : 5 ≤ σ.st.rank → 5 ≤ σ'.st.rank) : D c σ' := by
  have hc : ∀ n, deregs n σ'.log = deregs n σ.log := by
    intro n
    rw [hl]; unfold deregs; rw [List.countP_append, count_zero, Nat.zero_add]
    intro e he'
    simp only [decide_eq_false_iff_not]
    rintro rfl
    exact (he n).1 he'
  have hm1 : ∀ n b, Ev.regRes n b ∈ σ'.log ↔ Ev.regRes n b ∈ σ.log := by
    intro n b; rw [hl, List.mem_append]
    exact ⟨fun h => h.elim (fun h => absurd h ((he n).2.1 b)) id, .inr⟩
  have hm2 : ∀ n, Ev.dereg n ∈ σ'.log ↔ Ev.dereg n ∈ σ.log := by
    intro n; rw [hl, List.mem_append]
    exact ⟨fun h => h.elim (fun h => absurd h (he n).1) id, .inr⟩
  have hm3 : ∀ n a, Ev.register n a ∈ σ'.log ↔ Ev.register n a ∈ σ.log := by
    intro n b; rw [hl, List.mem_append]
    exact ⟨fun h => h.elim (fun h => absurd h ((he n).2.2 b)) id, .inr⟩
  obtain ⟨g0, g1, g2, g3, g4, g5, g6, g7, g8, g9, g10⟩ := h
  constructor <;> (try simp only [hc, hm1, hm2, hm3, hr]) <;> first | assumption | grind

set_option maxHeartbeats 4000000 in
theorem D.step (hg : c.Good) (hb : Base σ) (hu : Uniq σ) (hk : K c σ) (h : D c σ) (m : M c σ σ') : D c σ' := by
  cases m
  case confL hc hs hi e =>
    obtain ⟨srv', b, e1, -⟩ := links_spec e
    subst e1
    exact h.plain (es := (c.links.map (fun a => Ev.linkReq a .user)).reverse) rfl (fun n => by simp) rfl rfl h.d6 h.d10 id
  case confR hc hs hi hl e =>
    obtain ⟨regs', disc', e1, e2, e3, e4, -⟩ := wants_spec e
    obtain ⟨g1, g2, g3, g4, g5, g6, g7, g8, g9⟩ := hk.q0 hc
    have hz : ∀ n, Ev.dereg n ∉ σ.log := fun n hn => g8 _ _ (h.d4 n hn)
    have hz' : ∀ n, deregs n σ.log = 0 := fun n => count_zero (fun e he => by
      simp only [decide_eq_false_iff_not]; rintro rfl; exact hz n he)
    simp only [g2, AMap.find_nil] at e4
    obtain ⟨k0, k1, k2, k3, k4, k5, k6, k7, k8, k9, k10⟩ := h
    subst e1
    have hsr : σ.rShutR ≠ false := fun hr => by have := k9 hr; rw [hs] at this; simp [AState.rank] at this
    rcases linkedTo_cases c c.wants { σ with confR := true } with ⟨e, -⟩ | ⟨f1, f2, e⟩
    · rw [e]
      have hrk : (AState.rank .initializing) < 5 := by simp [AState.rank]
      constructor
      · intro n r hf; rcases (e4 n r).1 hf with h | ⟨a, h1, rfl⟩
        · cases h
        · exact ⟨h1, hz' n⟩
      · intro n a hf; rcases (e4 n _).1 hf with h | ⟨a, h1, h⟩ <;> cases h
      · exact fun n hn => absurd hn (g8 _ _)
      · exact k3
      · exact k4
      · exact fun h => absurd h hsr
      · exact k6
      · exact fun n a _ => g8 _ _
      · exact k8
      · exact k9
      · exact k10
    · rw [e]
      have hq : ∀ n, deregs n (Ev.linkReq c.reg .registry :: σ.log) = deregs n σ.log := by
        intro n; simp [deregs, List.countP_cons]
      constructor
      · intro n r hf; rcases (e4 n r).1 hf with h | ⟨a, h1, rfl⟩
        · cases h
        · exact ⟨h1, (hq n).trans (hz' n)⟩
      · intro n a hf; rcases (e4 n _).1 hf with h | ⟨a, h1, h⟩ <;> cases h
      · intro n hn; simp only [List.mem_cons, reduceCtorEq, false_or] at hn; exact absurd hn (g8 _ _)
      · exact fun n => (hq n).symm ▸ k3 n
      · intro n hn; simp only [List.mem_cons, reduceCtorEq, false_or] at hn ⊢; exact k4 n hn
      · exact fun h => absurd h hsr
      · exact k6
      · intro n a _ hn; simp only [List.mem_cons, reduceCtorEq, false_or] at hn; exact absurd hn (g8 _ _)
      · intro n a hn; simp only [List.mem_cons, reduceCtorEq, false_or] at hn; exact k8 n a hn
      · exact k9
      · exact k10
  case regOk n r hq hr =>
    have hq' : ∀ m, deregs m (Ev.regRes n true :: σ.log) = deregs m σ.log := by
      intro m; simp [deregs, List.countP_cons]
    have hn := hk.q2 n true hq
    obtain ⟨k0, k1, k2, k3, k4, k5, k6, k7, k8, k9, k10⟩ := h
    obtain ⟨ra, rs⟩ := r
    constructor <;> (try simp only [hq', AMap.find_set, List.mem_cons]) <;> first
      | grind
      | (intro hh; rw [k5 hh] at hr; cases hr)
      | (intro m hm
         by_cases hmn : m = n
         · exact .inl ⟨ra, by rw [if_pos hmn]⟩
         · rw [if_neg hmn]
           exact k2 m (hm.resolve_left (fun e => hmn (by cases e; rfl))))
  case regErr n r hq hr hi =>
    have hq' : ∀ m, deregs m (Ev.answer false :: Ev.regRes n false :: σ.log) = deregs m σ.log := by
      intro m; simp [deregs, List.countP_cons]
    have hn := hk.q2 n true hq
    obtain ⟨k0, k1, k2, k3, k4, k5, k6, k7, k8, k9, k10⟩ := h
    constructor <;> (try simp only [hq', AMap.find_erase, List.mem_cons]) <;> grind [AMap.erase]
  case alias n a t names hq ht hs ha =>
    exact h.plain (es := foundEv n t a ++ [.discRes n (some a)]) (by simp) (fun n => by simp [mem_foundEv]) rfl rfl h.d6 h.d10 id
  case found n a t hq ht hs ha hr =>
    exact h.plain (es := .linkReq a (.task n) :: (foundEv n t a ++ [.discRes n (some a)])) (by simp) (fun n => by simp [mem_foundEv]) rfl rfl h.d6 h.d10 id
  case foundDown n a t d hq hfd hdk ht hs =>
    exact h.plain (es := foundEv n t a ++ [.discRes n (some a)]) (by simp) (fun n => by simp [mem_foundEv]) rfl rfl h.d6 h.d10 id
  case linkTask a n r t names hq hr hcb ht hn hall hst =>
    exact h.plain (es := callEvs σ true names ++ [.linkRes a true]) (by simp) (fun n => by simp [mem_callEvs]) rfl rfl h.d6 h.d10 id
  case linkTaskDown a n r t names hq hr hcb ht hn hall hst =>
    exact h.plain (es := callEvs σ true names ++ [.linkRes a true]) (by simp) (fun n => by simp [mem_callEvs]) rfl rfl h.d6 h.d10 id
  case linkTaskErr a n r t names hq hr hcb ht hn hall hst =>
    refine h.plain (es := (if σ.st = .initializing then [.answer false] else []) ++ (callEvs σ false names ++ [.linkRes a false])) (by simp) (fun n => ?_)
      rfl rfl h.d6 h.d10 id
    split <;> simp [mem_callEvs]
  case linkErr a r hq hr hcb =>
    refine h.plain (es := (if σ.initReq then [.answer false] else []) ++ [.linkRes a false]) (by simp) (fun n => ?_) rfl rfl h.d6 h.d10 id
    split <;> simp
  case linkReg a r hq hr hcb =>
    have hq' : ∀ m, deregs m (onLink true { σ with qLink := rm σ.qLink a, log := .linkRes a true :: σ.log }).log =
        deregs m σ.log := by
      intro m
      simp only [onLink, deregs, if_true, List.countP_append, List.countP_cons]
      rw [count_zero (l := (σ.disc.map _).reverse), count_zero (l := (σ.regs.map _).reverse)]
      · simp
      · intro e he; simp only [List.mem_reverse, List.mem_map] at he; obtain ⟨p, -, rfl⟩ := he; simp
      · intro e he; simp only [List.mem_reverse, List.mem_map] at he; obtain ⟨p, -, rfl⟩ := he; simp
    have hm1 : ∀ n b, Ev.regRes n b ∈ (onLink true { σ with qLink := rm σ.qLink a, log := .linkRes a true :: σ.log }).log ↔ Ev.regRes n b ∈ σ.log := by
      simp [mem_linkLog]
    have hm2 : ∀ n, Ev.dereg n ∈ (onLink true { σ with qLink := rm σ.qLink a, log := .linkRes a true :: σ.log }).log ↔ Ev.dereg n ∈ σ.log := by
      simp [mem_linkLog]
    have hm3 : ∀ n x, Ev.register n x ∈ (onLink true { σ with qLink := rm σ.qLink a, log := .linkRes a true :: σ.log }).log →
        Ev.register n x ∈ σ.log ∨ ∃ r, σ.regs.find n = some r ∧ r.a = x := by
      intro n x hm
      simp only [mem_linkLog] at hm
      rcases hm with ⟨m, t, hm, -⟩ | ⟨m, r, hm, hf⟩ | hm
      · cases hm
      · cases hm; exact .inr ⟨r, AMap.find_of_mem hu.r hf, rfl⟩
      · simp at hm; exact .inl hm
    obtain ⟨k0, k1, k2, k3, k4, k5, k6, k7, k8, k9, k10⟩ := h
    constructor <;> simp only [hq', hm1, hm2] <;> (try simp only [onLink, if_true]) <;> first | assumption | skip
    intro n x hm
    rcases hm3 n x hm with h | ⟨r, h, rfl⟩
    · exact k8 n x h
    · exact (k0 n r h).1
  case names hs hr hd =>
    have hq' : ∀ m, deregs m (shutNames σ).log = (match σ.regs.find m with
        | some r => if r.st = .operational then 1 else 0
        | none => 0) + deregs m σ.log := by
      intro m
      simp only [shutNames, deregs, List.countP_append]
      rw [count_dereg hu.r, count_zero (l := (List.map _ (List.filter _ σ.disc)).reverse), Nat.zero_add]
      intro e he; simp only [List.mem_reverse, List.mem_map] at he; obtain ⟨p, -, rfl⟩ := he; simp
    have hm1 : ∀ n b, Ev.regRes n b ∈ (shutNames σ).log ↔ Ev.regRes n b ∈ σ.log := by simp [mem_shutLog]
    have hm3 : ∀ n b, Ev.register n b ∈ (shutNames σ).log ↔ Ev.register n b ∈ σ.log := by simp [mem_shutLog]
    have hm2 : ∀ n, Ev.dereg n ∈ (shutNames σ).log → Ev.dereg n ∈ σ.log ∨ ∃ a, σ.regs.find n = some ⟨a, .operational⟩ := by
      intro n hm
      rw [mem_shutLog] at hm
      rcases hm with ⟨m, hm, -⟩ | ⟨m, hm, r, hf, ho⟩ | hm
      · cases hm
      · cases hm; obtain ⟨ra, rs⟩ := r; simp only at ho; subst ho; exact .inr ⟨ra, AMap.find_of_mem hu.r hf⟩
      · exact .inl hm
    obtain ⟨k0, k1, k2, k3, k4, k5, k6, k7, k8, k9, k10⟩ := h
    have e1 : (shutNames σ).regs = [] := rfl
    have e2 : (shutNames σ).rShutR = σ.rShutR := rfl
    have e3 : (shutNames σ).rShutL = σ.rShutL := rfl
    have e4 : (shutNames σ).st = σ.st := rfl
    constructor <;> simp only [hq', hm1, hm3, e1, e2, e3, e4, AMap.find_nil] <;> (try assumption) <;> (try (intros; contradiction))
    · intro n hn
      rcases k2 n hn with ⟨a, h⟩ | h
      · right; have := (k0 n _ h).2; simp [h, this]
      · right
        cases hf : σ.regs.find n with
        | none => simp [h]
        | some r => have := (k0 n r hf).2; omega
    · intro n
      cases hf : σ.regs.find n with
      | none => simpa using k3 n
      | some r => have := (k0 n r hf).2; rw [this]; simp only; split <;> omega
    · intro n hn
      rcases hm2 n hn with h | ⟨a, h⟩
      · exact k4 n h
      · exact k1 n a h
    · grind
  case namesEnd hs hr hd =>
    have hq' : ∀ m, deregs m (shutNames σ).log = (match σ.regs.find m with
        | some r => if r.st = .operational then 1 else 0
        | none => 0) + deregs m σ.log := by
      intro m
      simp only [shutNames, deregs, List.countP_append]
      rw [count_dereg hu.r, count_zero (l := (List.map _ (List.filter _ σ.disc)).reverse), Nat.zero_add]
      intro e he; simp only [List.mem_reverse, List.mem_map] at he; obtain ⟨p, -, rfl⟩ := he; simp
    have hm1 : ∀ n b, Ev.regRes n b ∈ (shutNames σ).log ↔ Ev.regRes n b ∈ σ.log := by simp [mem_shutLog]
    have hm3 : ∀ n b, Ev.register n b ∈ (shutNames σ).log ↔ Ev.register n b ∈ σ.log := by simp [mem_shutLog]
    have hm2 : ∀ n, Ev.dereg n ∈ (shutNames σ).log → Ev.dereg n ∈ σ.log ∨ ∃ a, σ.regs.find n = some ⟨a, .operational⟩ := by
      intro n hm
      rw [mem_shutLog] at hm
      rcases hm with ⟨m, hm, -⟩ | ⟨m, hm, r, hf, ho⟩ | hm
      · cases hm
      · cases hm; obtain ⟨ra, rs⟩ := r; simp only at ho; subst ho; exact .inr ⟨ra, AMap.find_of_mem hu.r hf⟩
      · exact .inl hm
    obtain ⟨k0, k1, k2, k3, k4, k5, k6, k7, k8, k9, k10⟩ := h
    have e1 : (shutNames σ).regs = [] := rfl
    have e3 : (shutNames σ).rShutL = σ.rShutL := rfl
    have e4 : (shutNames σ).st = σ.st := rfl
    constructor <;> simp only [hq', hm1, hm3, e1, e3, e4, AMap.find_nil] <;> (try assumption) <;> (try (intros; contradiction))
    · intro n hn
      rcases k2 n hn with ⟨a, h⟩ | h
      · right; have := (k0 n _ h).2; simp [h, this]
      · right
        cases hf : σ.regs.find n with
        | none => simp [h]
        | some r => have := (k0 n r hf).2; omega
    · intro n
      cases hf : σ.regs.find n with
      | none => simpa using k3 n
      | some r => have := (k0 n r hf).2; rw [this]; simp only; split <;> omega
    · intro n hn
      rcases hm2 n hn with h | ⟨a, h⟩
      · exact k4 n h
      · exact k1 n a h
    · grind
    · grind
    · rw [hs]; simp [AState.rank]
  case finI hs _ _ _ =>
    exact h.plain (es := [.answer true]) rfl (fun n => by simp) rfl rfl h.d6 (fun h => by cases h) (fun h => by rw [hs] at h; simp [AState.rank] at h)
  case lostInit n t hq ht hs hi =>
    exact h.plain (es := [.answer false, .discRes n none]) rfl (fun n => by simp) rfl rfl h.d6 h.d10 id
  case lostDown n t hq ht hs =>
    exact h.plain (es := [.discRes n none]) rfl (fun n => by simp) rfl rfl h.d6 h.d10 id
  case linkUser a r hq hr hcb =>
    exact h.plain (es := [.linkRes a true]) rfl (fun n => by simp) rfl rfl h.d6 h.d10 id
  case failReset hi =>
    exact h.plain (es := [.answer false]) rfl (fun n => by simp) rfl rfl h.d6 h.d10 id
  case shut hs =>
    exact h.plain (es := [.shut]) rfl (fun n => by simp) rfl rfl h.d6 (fun h => by cases h) (fun _ => by simp [AState.rank])
  case finish hs hl =>
    exact h.plain (es := []) rfl (fun n => by simp) rfl rfl h.d6 (fun _ => hl) (fun _ => by simp [AState.rank])
  case start hs =>
    exact h.plain (es := []) rfl (fun n => by simp) rfl rfl h.d6 (fun h => by cases h) (fun h => by rw [hs] at h; simp [AState.rank] at h)
  case client b hs hr =>
    exact h.plain (es := []) rfl (fun n => by simp) rfl rfl (fun _ => hr) (fun h => by rw [hs] at h; cases h) id
  case clientEnd hs hr =>
    exact h.plain (es := []) rfl (fun n => by simp) rfl rfl (fun _ => hr) (fun _ => rfl) id
  all_goals exact h.plain (es := []) rfl (fun n => by simp) rfl rfl h.d6 h.d10 id

end Verif.RegPlugin
