import Verif.Farewell.Spec
/-! # Invariants of the foreign subscriptions of a supervisor (C79) -/

namespace Verif.Farewell
open Verif

theorem upd_same {α : Type} (f : Nat → α) (i : Nat) (v : α) : upd f i v i = v := by simp [upd]
theorem upd_ne {α : Type} (f : Nat → α) {i j : Nat} (v : α) (h : j ≠ i) : upd f i v j = f j := by simp [upd, h]

/-- what a message says about the subscription `x`: that it is wanted, or not any more -/
def about (x : Nat) : Msg → Option Bool
  | .ext y => if y = x then some true else none
  | .commit y => if y = x then some false else none
  | _ => none

/-- wishes alternate: from `b` on, up to `e` -/
def alt : Bool → List Bool → Bool → Prop
  | b, [], e => b = e
  | b, m :: l, e => m = !b ∧ alt m l e

theorem alt_snoc {b e : Bool} {l : List Bool} (h : alt b l e) : alt b (l ++ [!e]) (!e) := by
  induction l generalizing b with
  | nil => simp only [alt] at h; subst h; simp [alt]
  | cons m l ih => exact ⟨h.1, ih h.2⟩

/-- not an unsubscription message of the plugin -/
def plain (q : List Msg) : Prop := ∀ h, Msg.off h ∉ q

theorem plain_snoc {q : List Msg} {m : Msg} (h : plain q) (hm : ∀ h, m ≠ .off h) : plain (q ++ [m]) := by
  intro a ha
  rcases List.mem_append.mp ha with e | e
  · exact h a e
  · exact hm a (List.mem_singleton.mp e).symm

theorem plain_tail {q : List Msg} {m : Msg} (h : plain (m :: q)) : plain q := fun a ha => h a (by simp [ha])

theorem ne_of_all {l : List H} (h : ∀ a, a ∈ l) : l ≠ [] := List.ne_nil_of_mem (h .ext)

def full : List H := [.call, .unsub, .ext]

/-- how far the deactivation of the plugin is -/
inductive Phase (s : State) : Prop
  | on (h1 : s.own = full) (h2 : s.uns = []) (h3 : s.active = true) (h4 : plain s.queue)
  | going (h1 : s.own = full) (h2 : ∀ h, h ∈ s.uns) (h3 : s.active = true) (pre post : List Msg)
      (h4 : s.queue = pre ++ .off .ext :: .off .unsub :: .off .call :: post) (h5 : plain pre) (h6 : plain post)
  | two (h1 : s.own = [.call, .unsub]) (h2 : ∀ h, h ∈ s.uns) (h3 : s.active = true) (post : List Msg)
      (h4 : s.queue = .off .unsub :: .off .call :: post) (h6 : plain post)
  | one (h1 : s.own = [.call]) (h2 : ∀ h, h ∈ s.uns) (h3 : s.active = true) (post : List Msg)
      (h4 : s.queue = .off .call :: post) (h6 : plain post)
  | off (h1 : s.own = []) (h2 : ∀ h, h ∈ s.uns) (h3 : s.active = false) (h4 : s.deact = false) (h5 : plain s.queue)

/-- the invariant -/
structure Inv (src : Nat → Nat) (s : State) : Prop where
  ph : Phase s
  tab : s.table = s.fp
  nd : s.fp.Nodup
  al : H.ext ∈ s.own → ∀ x, alt (decide (x ∈ s.fp)) ((s.queue ++ s.chan (src x)).filterMap (about x)) (s.sub x)
  cp : ∀ l, plain (s.chan l)
  cs : ∀ l x, (Msg.ext x ∈ s.chan l ∨ Msg.commit x ∈ s.chan l) → l = src x
  dk : .deactivated ∈ s.log → s.kids = [] ∧ s.st ≠ .operational ∧ s.uns ≠ []
  em : .emptied ∈ s.log → s.st ≠ .operational ∧ s.uns ≠ []
  sh : s.uns ≠ [] → s.st ≠ .operational ∧ (.emptied ∈ s.log ∨ .deactivated ∈ s.log)
  ds : s.st = .shutDown → s.own = []

/-- the counts of events -/
structure Cnt (src : Nat → Nat) (s : State) : Prop where
  ca : ∀ x, s.log.count (.asked x) = s.log.count (.confirmed x) + s.log.count (.unheard x) + wanting src s x
  cl : ∀ x, s.log.count (.left x) = s.log.count (.removed x) + s.log.count (.forgotten x) + leaving src s x
  ct : ∀ x, s.log.count (.confirmed x) = s.log.count (.removed x) + s.table.count x
  cu : ∀ x, s.log.count (.asked x) = s.log.count (.left x) + (if s.sub x then 1 else 0)
  lo : ∀ k, .lost k ∈ s.log → .emptied ∈ s.log
  un : ∀ x, (.unheard x ∈ s.log ∨ .forgotten x ∈ s.log) → H.ext ∉ s.own

theorem init_inv (src : Nat → Nat) : Inv src State.init := by
  refine ⟨.on rfl rfl rfl (by simp [plain, State.init]), rfl, by simp [State.init], ?_, ?_, ?_, ?_, ?_, ?_, ?_⟩ <;>
    simp [State.init, alt, plain]

theorem init_cnt (src : Nat → Nat) : Cnt src State.init := by
  refine ⟨?_, ?_, ?_, ?_, ?_, ?_⟩ <;> simp [State.init, wanting, leaving]

/-- a message of a foreign locality is put into its channel -/
theorem Phase.congr {s s' : State} (h : Phase s) (h1 : s'.own = s.own) (h2 : s'.uns = s.uns) (h3 : s'.active = s.active)
    (h4 : s'.deact = s.deact) (h5 : s'.queue = s.queue) : Phase s' := by
  cases h with
  | on a b c d => exact .on (h1 ▸ a) (h2 ▸ b) (h3 ▸ c) (h5 ▸ d)
  | going a b c pre post d e f => exact .going (h1 ▸ a) (h2 ▸ b) (h3 ▸ c) pre post (h5 ▸ d) e f
  | two a b c post d e => exact .two (h1 ▸ a) (h2 ▸ b) (h3 ▸ c) post (h5 ▸ d) e
  | one a b c post d e => exact .one (h1 ▸ a) (h2 ▸ b) (h3 ▸ c) post (h5 ▸ d) e
  | off a b c d e => exact .off (h1 ▸ a) (h2 ▸ b) (h3 ▸ c) (h4 ▸ d) (h5 ▸ e)

/-- a message is put at the end of the queue -/
theorem Phase.snoc {s s' : State} (h : Phase s) {m : Msg} (hm : ∀ h, m ≠ .off h) (h1 : s'.own = s.own) (h2 : s'.uns = s.uns)
    (h3 : s'.active = s.active) (h4 : s'.deact = s.deact) (h5 : s'.queue = s.queue ++ [m]) : Phase s' := by
  cases h with
  | on a b c d => exact .on (h1 ▸ a) (h2 ▸ b) (h3 ▸ c) (h5 ▸ plain_snoc d hm)
  | going a b c pre post d e f => exact .going (h1 ▸ a) (h2 ▸ b) (h3 ▸ c) pre (post ++ [m]) (by rw [h5, d]; simp) e (plain_snoc f hm)
  | two a b c post d e => exact .two (h1 ▸ a) (h2 ▸ b) (h3 ▸ c) (post ++ [m]) (by rw [h5, d]; simp) (plain_snoc e hm)
  | one a b c post d e => exact .one (h1 ▸ a) (h2 ▸ b) (h3 ▸ c) (post ++ [m]) (by rw [h5, d]; simp) (plain_snoc e hm)
  | off a b c d e => exact .off (h1 ▸ a) (h2 ▸ b) (h3 ▸ c) (h4 ▸ d) (h5 ▸ plain_snoc e hm)

/-- a message other than of the plugin is taken: the plugin is as it was, and knows about both kinds of messages or about none -/
theorem Phase.take {s s' : State} (h : Phase s) {m : Msg} {rest : List Msg} (hq : s.queue = m :: rest) (hm : ∀ h, m ≠ .off h)
    (h1 : s'.own = s.own) (h2 : s'.uns = s.uns) (h3 : s'.active = s.active) (h4 : s'.deact = s.deact) (h5 : s'.queue = rest) :
    Phase s' ∧ ((s.own = full ∧ s.active = true) ∨ (s.own = [] ∧ s.active = false ∧ s.uns ≠ [])) := by
  cases h with
  | on a b c d => exact ⟨.on (h1 ▸ a) (h2 ▸ b) (h3 ▸ c) (h5 ▸ plain_tail (hq ▸ d)), Or.inl ⟨a, c⟩⟩
  | going a b c pre post d e f =>
    refine ⟨?_, Or.inl ⟨a, c⟩⟩
    cases pre with
    | nil => rw [hq] at d; simp only [List.nil_append, List.cons.injEq] at d; exact absurd d.1 (hm _)
    | cons y pre =>
      rw [hq] at d
      simp only [List.cons_append, List.cons.injEq] at d
      exact .going (h1 ▸ a) (h2 ▸ b) (h3 ▸ c) pre post (by rw [h5]; exact d.2) (plain_tail e) f
  | two a b c post d e => rw [hq] at d; simp only [List.cons.injEq] at d; exact absurd d.1 (hm _)
  | one a b c post d e => rw [hq] at d; simp only [List.cons.injEq] at d; exact absurd d.1 (hm _)
  | off a b c d e => exact ⟨.off (h1 ▸ a) (h2 ▸ b) (h3 ▸ c) (h4 ▸ d) (h5 ▸ plain_tail (hq ▸ e)), Or.inr ⟨a, c, ne_of_all b⟩⟩

/-- the deactivation begins, or has begun -/
theorem baseDeactivate_spec {s : State} (h : Phase s) :
    Phase (baseDeactivate s) ∧ (baseDeactivate s).uns ≠ [] ∧ (baseDeactivate s).own = s.own ∧
      ∃ l U d, baseDeactivate s = { s with queue := s.queue ++ l, uns := U, deact := d } ∧ (∀ m, m ∈ l → ∃ h, m = .off h) ∧ (s.uns ≠ [] → l = []) := by
  cases h with
  | on a b c d =>
    have e : baseDeactivate s = { s with queue := s.queue ++ [.off .ext, .off .unsub, .off .call], uns := [.call, .unsub, .ext] } := by
      simp [baseDeactivate, c, a, full, markAll, mark, b]
    rw [e]
    refine ⟨.going a (by intro h; cases h <;> simp) c s.queue [] (by simp) d (by simp [plain]), by simp, rfl, _, _, s.deact, rfl, ?_, ?_⟩
    · intro m hm
      simp only [List.mem_cons, List.not_mem_nil, or_false] at hm
      rcases hm with e | e | e <;> exact ⟨_, e⟩
    · intro z; exact absurd b z
  | going a b c pre post d e f =>
    have e' : baseDeactivate s = s := by simp [baseDeactivate, c, a, full, markAll, mark, b]
    rw [e']
    exact ⟨.going a b c pre post d e f, ne_of_all b, rfl, [], s.uns, s.deact, by simp, by simp, by simp⟩
  | two a b c post d e =>
    have e' : baseDeactivate s = s := by simp [baseDeactivate, c, a, markAll, mark, b]
    rw [e']
    exact ⟨.two a b c post d e, ne_of_all b, rfl, [], s.uns, s.deact, by simp, by simp, by simp⟩
  | one a b c post d e =>
    have e' : baseDeactivate s = s := by simp [baseDeactivate, c, a, markAll, mark, b]
    rw [e']
    exact ⟨.one a b c post d e, ne_of_all b, rfl, [], s.uns, s.deact, by simp, by simp, by simp⟩
  | off a b c d e =>
    have e' : baseDeactivate s = s := by simp [baseDeactivate, c]
    rw [e']
    exact ⟨.off a b c d e, ne_of_all b, rfl, [], s.uns, s.deact, by simp, by simp, by simp⟩

theorem passAll_spec (u : Nat) (l : List Nat) (s : State) :
    ∃ g, passAll u l s = { s with log := g ++ s.log } ∧ (∀ e, e ∈ g → ∃ x, e = .passed u x) := by
  induction l generalizing s with
  | nil => exact ⟨[], by simp [passAll], by simp⟩
  | cons x l ih =>
    obtain ⟨g, e, h⟩ := ih { s with log := .passed u x :: s.log }
    refine ⟨g ++ [.passed u x], by simp [passAll, e], ?_⟩
    intro y hy
    rcases List.mem_append.mp hy with q | q
    · exact h y q
    · exact ⟨x, by simpa using q⟩

theorem count_offs {l : List Msg} (h : ∀ m, m ∈ l → ∃ h, m = Msg.off h) (x : Nat) : l.count (.ext x) = 0 ∧ l.count (.commit x) = 0 := by
  constructor <;> rw [List.count_eq_zero] <;> intro e <;> obtain ⟨_, q⟩ := h _ e <;> cases q

theorem about_offs {l : List Msg} (h : ∀ m, m ∈ l → ∃ h, m = Msg.off h) (x : Nat) : l.filterMap (about x) = [] := by
  induction l with
  | nil => rfl
  | cons m l ih =>
    obtain ⟨a, rfl⟩ := h m (by simp)
    rw [List.filterMap_cons_none rfl]
    exact ih (fun m hm => h m (by simp [hm]))

end Verif.Farewell
