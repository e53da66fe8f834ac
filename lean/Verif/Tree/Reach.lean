import Verif.Tree.Kids
import Verif.Tree.Model
/-!
# Executions of a tree

Every supervisor of the tree behaves as one of `Verif.Children`, and its parent sees it as it is.
-/

namespace Verif.Tree
open Verif Verif.Children

variable {s : Sys} {φ : Fl} {T T' : Tree}

/-- the states reached; `φ` restricts the steps of each supervisor -/
inductive TReach (s : Sys) (φ : Fl) : Tree → Prop
  | init : TReach s φ (.init s)
  /-- a supervisor does something -/
  | own {T : Tree} (p : Path) (op : Op) (σ' : State) : TReach s φ T → Member s T p → Own s p (T p) op → Adm φ (T p) op →
      step (s.conf p) (T p) op = .ok σ' → TReach s φ (change T p σ')
  /-- a supervisor gets a message of its parent -/
  | deliver {T : Tree} (p : Path) (a : Nat) (m : Dn) (t : List Dn) (o : Ora) (σ' : State) : TReach s φ T → Member s T (a :: p) → (T p).to a = m :: t →
      (T (a :: p)).st ≠ .shutDown → Adm φ (T (a :: p)) (opOf o m) → step (s.conf (a :: p)) (T (a :: p)) (opOf o m) = .ok σ' →
      TReach s φ (change (put T p (taken a (T p))) (a :: p) σ')
  /-- a message of the parent is lost: the supervisor has no subscriptions any more -/
  | lost {T : Tree} (p : Path) (a : Nat) (m : Dn) (t : List Dn) : TReach s φ T → Member s T (a :: p) → (T p).to a = m :: t →
      (T (a :: p)).st = .shuttingDown ∨ (T (a :: p)).st = .shutDown → TReach s φ (put T p (taken a (T p)))

structure G (s : Sys) (φ : Fl) (T : Tree) : Prop where
  reach : ∀ p, Reach (s.conf p) φ (T p)
  cons : ∀ p a, s.sup (a :: p) = true → ((T p).kid a).born = true → (T p).kid a = mirror (T (a :: p))
  unborn : ∀ p a, ((T p).kid a).born = false → T (a :: p) = .init (s.conf (a :: p))

theorem conf_sub (s : Sys) (a : Nat) (p : Path) : (s.conf (a :: p)).root = false := rfl

theorem mirror_init (c : Conf) : mirror (.init c) = Kid.new := rfl

@[simp] theorem put_self (T : Tree) (p : Path) (σ : State) : put T p σ p = σ := by simp [put]
theorem put_ne {p x : Path} (T : Tree) (σ : State) (h : x ≠ p) : put T p σ x = T x := by simp [put, h]

theorem cons_ne (a : Nat) (p : Path) : p ≠ a :: p := fun h => by
  have := congrArg List.length h
  simp at this

/-! ## what the parent sees is what a child does -/

theorem kidDowns {c : Conf} (a : Nat) : ∀ (n : Nat) (τ : State), Reach c φ τ → (τ.kid a).born = true → (τ.kid a).st.rank < 5 →
    Reach c φ { τ with kid := upd τ.kid a { τ.kid a with want := (τ.kid a).want || decide (0 < n) }
                       out := upd τ.out a (τ.out a ++ List.replicate n .trigger) } := by
  intro n
  induction n with
  | zero =>
    intro τ h _ _
    have : ({ τ with kid := upd τ.kid a { τ.kid a with want := (τ.kid a).want || decide (0 < 0) }, out := upd τ.out a (τ.out a ++ List.replicate 0 .trigger) } : State) = τ := by
      have e1 : upd τ.kid a { τ.kid a with want := (τ.kid a).want || decide (0 < 0) } = τ.kid := by
        funext b; unfold upd; split
        · rename_i hb; subst hb; simp
        · rfl
      have e2 : upd τ.out a (τ.out a ++ List.replicate 0 .trigger) = τ.out := by
        funext b; unfold upd; split
        · rename_i hb; subst hb; simp
        · rfl
      rw [e1, e2]
    rw [this]; exact h
  | succ n ih =>
    intro τ h h1 h2
    have hs : Reach c φ { τ with kid := upd τ.kid a { τ.kid a with want := true }, out := upd τ.out a (τ.out a ++ [.trigger]) } := by
      refine .step (.kidDown a) h trivial ?_
      have hp : (τ.kid a).born = true ∧ (τ.kid a).st.rank < AState.shuttingDown.rank := ⟨h1, h2⟩
      simp only [step]
      rw [if_pos hp]
    have := ih _ hs (by simp [upd, h1]) (by simp only [upd, if_true]; exact h2)
    have e1 : upd (upd τ.kid a { τ.kid a with want := true }) a
        { (upd τ.kid a { τ.kid a with want := true } a) with want := (upd τ.kid a { τ.kid a with want := true } a).want || decide (0 < n) } =
        upd τ.kid a { τ.kid a with want := (τ.kid a).want || decide (0 < n + 1) } := by
      funext b; unfold upd; split <;> simp
    have e2 : upd (upd τ.out a (τ.out a ++ [.trigger])) a (upd τ.out a (τ.out a ++ [.trigger]) a ++ List.replicate n .trigger) =
        upd τ.out a (τ.out a ++ List.replicate (n + 1) .trigger) := by
      funext b; unfold upd; split <;> simp [List.replicate_succ]
    simp only [e1, e2] at this
    exact this

theorem kidInits {c : Conf} {a : Nat} {τ : State} (ok : Bool) (h : Reach c φ τ) (h1 : (τ.kid a).born = true) (h2 : (τ.kid a).ireq = true)
    (h3 : (τ.kid a).st.rank ≤ 5) (h4 : ok = true → (τ.kid a).st = .initializing) :
    Reach c φ { τ with kid := upd τ.kid a { τ.kid a with ireq := false, ans := true, st := if ok then .initialized else (τ.kid a).st }
                       out := upd τ.out a (τ.out a ++ [.initRes ok]) } := by
  refine .step (.kidInit a ok false) h trivial ?_
  have hp : (τ.kid a).born = true ∧ (τ.kid a).ireq = true ∧ (τ.kid a).st.rank ≤ AState.shuttingDown.rank ∧ (ok = true → (τ.kid a).st = .initializing) :=
    ⟨h1, h2, h3, h4⟩
  simp only [step]
  rw [if_pos hp]
  cases ok <;> rfl

theorem kidShuts {c : Conf} {a : Nat} {τ : State} (h : Reach c φ τ) (h1 : (τ.kid a).born = true) (h3 : (τ.kid a).st = .shuttingDown) :
    Reach c φ { τ with kid := upd τ.kid a { τ.kid a with st := .shutDown }, out := upd τ.out a (τ.out a ++ [.shutRes]) } := by
  refine .step (.kidShut a) h trivial ?_
  have hp : (τ.kid a).born = true ∧ (τ.kid a).st = .shuttingDown := ⟨h1, h3⟩
  simp only [step]
  rw [if_pos hp]

theorem upd_upd {α : Type} (f : Nat → α) (a : Nat) (x y : α) : upd (upd f a x) a y = upd f a y := by
  funext b; unfold upd; split <;> rfl

theorem upd_at {α : Type} (f : Nat → α) (a : Nat) (x : α) : upd f a x a = x := by simp [upd]

/-- the parent, in the shape the steps above have -/
def look (τ : State) (a : Nat) (k : Kid) (l : List KM) : State :=
  { τ with
    kid := upd τ.kid a k
    out := upd τ.out a (τ.out a ++ l) }

theorem look_nil (τ : State) (a : Nat) : look τ a (τ.kid a) [] = τ := by
  have e1 : upd τ.kid a (τ.kid a) = τ.kid := by funext b; unfold upd; split <;> simp_all
  have e2 : upd τ.out a (τ.out a ++ []) = τ.out := by funext b; unfold upd; split <;> simp_all
  unfold look; rw [e1, e2]

theorem look_look (τ : State) (a : Nat) (k k' : Kid) (l l' : List KM) : look (look τ a k l) a k' l' = look τ a k' (l ++ l') := by
  unfold look
  simp only [upd_upd, upd_at, List.append_assoc]

theorem look_kid (τ : State) (a : Nat) (k : Kid) (l : List KM) : (look τ a k l).kid a = k := by simp [look, upd]

theorem seen_reach {c : Conf} {a : Nat} {σ σ' τ : State} (h : Reach c φ τ) (hk : τ.kid a = mirror σ) (hd : Delta (sview σ) (sview σ'))
    (hst : σ.st.rank ≤ 5 ∨ (σ'.st = σ.st ∧ σ'.initFails = σ.initFails)) (hr : σ.initReq = true → answers σ = 0) : Reach c φ (seen a σ σ' τ) := by
  obtain ⟨d1, d2, d3, d4⟩ := hd
  simp only [sview] at d1 d2 d3 d4
  have hborn : (τ.kid a).born = true := by rw [hk]; rfl
  -- triggers
  let k1 : Kid := { mirror σ with want := decide (0 < σ'.wants) }
  have s1 : Reach c φ (look τ a k1 (List.replicate (σ'.wants - σ.wants) .trigger)) := by
    by_cases hw : σ.wants < σ'.wants
    · have h5 := d2 hw
      have := kidDowns (c := c) a (σ'.wants - σ.wants) τ h hborn (by rw [hk]; exact h5)
      have e : ({ τ.kid a with want := (τ.kid a).want || decide (0 < σ'.wants - σ.wants) } : Kid) = k1 := by
        rw [hk]; simp [k1, mirror]; grind
      rw [e] at this
      exact this
    · have e0 : σ'.wants = σ.wants := by omega
      have e : k1 = τ.kid a := by rw [hk]; simp [k1, mirror, e0]
      rw [e, e0, Nat.sub_self, List.replicate_zero, look_nil]
      exact h
  -- a failure
  let k2 : Kid := if σ'.initFails = σ.initFails then k1 else { k1 with ireq := false, ans := true }
  have s2 : Reach c φ (look τ a k2 (List.replicate (σ'.wants - σ.wants) .trigger ++ (if σ'.initFails = σ.initFails then [] else [.initRes false]))) := by
    by_cases hf : σ'.initFails = σ.initFails
    · simp only [k2, hf, if_true, List.append_nil]; exact s1
    · have hreq : σ.initReq = true := by
        rcases d4 with d4 | d4 | d4
        · exact absurd d4.2.1 hf
        · exact absurd d4.2.1 hf
        · exact d4.2.2.1
      have hst' : σ.st.rank ≤ 5 := by
        rcases hst with h | h
        · exact h
        · exact absurd h.2 hf
      have := kidInits (a := a) false s1 (by rw [look_kid]; rfl) (by rw [look_kid]; exact hreq) (by rw [look_kid]; exact hst') (by simp)
      rw [look_kid] at this
      have e := look_look τ a k1 { k1 with ireq := false, ans := true } (List.replicate (σ'.wants - σ.wants) .trigger) [.initRes false]
      simp only [k2, hf, if_false]
      rw [← e]
      exact this
  -- success
  let k3 : Kid := if σ'.initOks = σ.initOks then k2 else { k2 with ireq := false, ans := true, st := .initialized }
  have s3 : Reach c φ (look τ a k3 (List.replicate (σ'.wants - σ.wants) .trigger ++ (if σ'.initFails = σ.initFails then [] else [.initRes false]) ++
      (if σ'.initOks = σ.initOks then [] else [.initRes true]))) := by
    by_cases hf : σ'.initOks = σ.initOks
    · simp only [k3, hf, if_true, List.append_nil]; exact s2
    · have hx : σ'.initFails = σ.initFails ∧ σ.initReq = true ∧ σ.st = .initializing := by
        rcases d4 with d4 | d4 | d4
        · exact absurd d4.1 hf
        · exact ⟨d4.2.1, d4.2.2.1, d4.2.2.2.2.1⟩
        · exact absurd d4.1 hf
      have e2 : k2 = k1 := by simp [k2, hx.1]
      have := kidInits (a := a) true s2 (by rw [look_kid, e2]; rfl) (by rw [look_kid, e2]; exact hx.2.1)
        (by rw [look_kid, e2]; show σ.st.rank ≤ 5; rw [hx.2.2]; decide) (by intro _; rw [look_kid, e2]; exact hx.2.2)
      rw [look_kid] at this
      have e := look_look τ a k2 { k2 with ireq := false, ans := true, st := .initialized }
        (List.replicate (σ'.wants - σ.wants) .trigger ++ (if σ'.initFails = σ.initFails then [] else [.initRes false])) [.initRes true]
      simp only [k3, hf, if_false]
      rw [← e]
      exact this
  -- the end
  have hk3 : k3 = if σ'.st = .shutDown ∧ σ.st ≠ .shutDown then { mirror σ' with st := σ.st } else mirror σ' := by
    have hnr : σ.initReq = true → σ.initOks = 0 ∧ σ.initFails = 0 := fun h => by have := hr h; unfold answers at this; omega
    simp only [k3, k2, k1, mirror, answers]
    rcases d4 with d4 | d4 | d4
    · obtain ⟨x1, x2, x3⟩ := d4
      rw [if_pos x1, if_pos x2]
      rcases d3 with d3 | d3 | d3
      · rw [if_neg (by rw [d3]; simp)]; simp [x1, x2, x3, d3] <;> grind
      · omega
      · rw [if_pos ⟨d3.2, by rw [d3.1]; simp⟩]; simp [x1, x2, x3] <;> grind
    · obtain ⟨x1, x2, x3, x4, x5, x6⟩ := d4
      rw [if_neg (by omega), if_pos x2, if_neg (by rw [x6]; simp)]
      have := hnr x3
      simp [x1, x2, x3, x4, x6] <;> omega
    · obtain ⟨x1, x2, x3, x4⟩ := d4
      rw [if_pos x1, if_neg (by omega)]
      have := hnr x3
      rcases d3 with d3 | d3 | d3
      · rw [if_neg (by rw [d3]; simp)]; simp [x1, x2, x3, x4, d3] <;> omega
      · omega
      · rw [if_pos ⟨d3.2, by rw [d3.1]; simp⟩]; simp [x1, x2, x3, x4] <;> omega
  have hseen : seen a σ σ' τ = look τ a (mirror σ') (report σ σ') := rfl
  rw [hseen]
  unfold report
  by_cases he : σ'.st = .shutDown ∧ σ.st ≠ .shutDown
  · rw [if_pos he] at hk3
    rw [if_pos he]
    have hsd : σ.st = .shuttingDown := by
      rcases d3 with d3 | d3 | d3
      · rw [he.1] at d3; exact absurd d3.symm he.2
      · rw [he.1] at d3; simp at d3
      · exact d3.1
    have := kidShuts (a := a) s3 (by rw [look_kid, hk3]; rfl) (by rw [look_kid, hk3]; exact hsd)
    rw [look_kid] at this
    have e := look_look τ a k3 { k3 with st := .shutDown }
      (List.replicate (σ'.wants - σ.wants) .trigger ++ (if σ'.initFails = σ.initFails then [] else [.initRes false]) ++
      (if σ'.initOks = σ.initOks then [] else [.initRes true])) [.shutRes]
    have e2 : ({ k3 with st := .shutDown } : Kid) = mirror σ' := by rw [hk3, ← he.1]; rfl
    rw [← e2, ← e]
    exact this
  · rw [if_neg he] at hk3
    rw [if_neg he, List.append_nil, ← hk3]
    exact s3

/-! ## the invariant -/

/-- children only appear -/
def Kids (σ σ' : State) (a : Nat) : Prop := σ'.kid a = σ.kid a ∨ ((σ.kid a).born = false ∧ σ'.kid a = Kid.new)

theorem Member.up {a : Nat} {p : Path} (h : Member s T (a :: p)) : Member s T p := h.1

theorem G.put0 (h : G s φ T) {σ' : State} (hr : Reach (s.conf []) φ σ') (hk : ∀ a, s.sup [a] = true → Kids (T []) σ' a)
    (hk' : ∀ a, (σ'.kid a).born = false → ((T []).kid a).born = false) : G s φ (put T [] σ') := by
  refine ⟨fun p => ?_, fun p a h1 h2 => ?_, fun p a h1 => ?_⟩
  · by_cases hp : p = []
    · subst hp; simpa using hr
    · rw [put_ne _ _ hp]; exact h.reach p
  · rw [put_ne (x := a :: p) T σ' (by simp)]
    by_cases hp : p = []
    · subst hp
      rw [put_self] at h2 ⊢
      rcases hk a h1 with hk | hk
      · rw [hk] at h2 ⊢; exact h.cons [] a h1 h2
      · rw [hk.2, h.unborn [] a hk.1, mirror_init]
    · rw [put_ne _ _ hp] at h2 ⊢
      exact h.cons p a h1 h2
  · rw [put_ne (x := a :: p) T σ' (by simp)]
    by_cases hp : p = []
    · subst hp
      rw [put_self] at h1
      exact h.unborn [] a (hk' a h1)
    · rw [put_ne _ _ hp] at h1
      exact h.unborn p a h1

theorem long_ne {p q : Path} (h : p.length ≠ q.length) : p ≠ q := fun e => h (by rw [e])

theorem G.put2 (h : G s φ T) {b : Nat} {q : Path} (hm : Member s T (b :: q)) {σ' τ' : State} (hr : Reach (s.conf (b :: q)) φ σ')
    (ht : Reach (s.conf q) φ τ') (hk : ∀ a, s.sup (a :: b :: q) = true → Kids (T (b :: q)) σ' a)
    (hk' : ∀ a, (σ'.kid a).born = false → ((T (b :: q)).kid a).born = false) (hb : τ'.kid b = mirror σ')
    (ho : ∀ a, a ≠ b → τ'.kid a = (T q).kid a) (hmi : mirror τ' = mirror (T q)) : G s φ (put (put T q τ') (b :: q) σ') := by
  have hqb : q ≠ b :: q := cons_ne b q
  have e0 : ∀ x, x ≠ b :: q → x ≠ q → put (put T q τ') (b :: q) σ' x = T x := fun x h1 h2 => by rw [put_ne _ _ h1, put_ne _ _ h2]
  have e1 : put (put T q τ') (b :: q) σ' q = τ' := by rw [put_ne _ _ hqb, put_self]
  have e2 : put (put T q τ') (b :: q) σ' (b :: q) = σ' := put_self _ _ _
  refine ⟨fun p => ?_, fun p a h1 h2 => ?_, fun p a h1 => ?_⟩
  · by_cases h1 : p = b :: q
    · subst h1; rw [e2]; exact hr
    · by_cases h2 : p = q
      · subst h2; rw [e1]; exact ht
      · rw [e0 p h1 h2]; exact h.reach p
  · by_cases hp1 : p = b :: q
    · subst hp1
      rw [e2] at h2 ⊢
      rw [e0 _ (long_ne (by simp)) (long_ne (by simp only [List.length_cons]; omega))]
      rcases hk a h1 with hk | hk
      · rw [hk] at h2 ⊢; exact h.cons _ a h1 h2
      · rw [hk.2, h.unborn _ a hk.1, mirror_init]
    · by_cases hp2 : p = q
      · subst hp2
        rw [e1] at h2 ⊢
        by_cases ha : a = b
        · subst ha; rw [e2, hb]
        · rw [e0 _ (by simp [ha]) (Ne.symm (cons_ne a p))]
          rw [ho a ha] at h2 ⊢
          exact h.cons p a h1 h2
      · rw [e0 p hp1 hp2] at h2 ⊢
        have : a :: p ≠ b :: q := by intro e; injection e with _ e; exact hp2 e
        by_cases hq : a :: p = q
        · subst hq
          rw [e1, hmi]
          exact h.cons p a h1 h2
        · rw [e0 _ this hq]; exact h.cons p a h1 h2
  · by_cases hp1 : p = b :: q
    · subst hp1
      rw [e2] at h1
      rw [e0 _ (long_ne (by simp)) (long_ne (by simp only [List.length_cons]; omega))]
      exact h.unborn _ a (hk' a h1)
    · by_cases hp2 : p = q
      · subst hp2
        rw [e1] at h1
        by_cases ha : a = b
        · subst ha; rw [hb] at h1; simp [mirror] at h1
        · rw [e0 _ (by simp [ha]) (Ne.symm (cons_ne a p))]
          rw [ho a ha] at h1
          exact h.unborn p a h1
      · rw [e0 p hp1 hp2] at h1
        have : a :: p ≠ b :: q := by intro e; injection e with _ e; exact hp2 e
        by_cases hq : a :: p = q
        · subst hq
          have := hm.1.2.2
          rw [h1] at this; simp at this
        · rw [e0 _ this hq]; exact h.unborn p a h1

/-! ## steps of a supervisor -/

theorem answers_req {c : Conf} {σ : State} (h : Reach c φ σ) : σ.initReq = true → answers σ = 0 := h.r.req

theorem born_keeps {c : Conf} {σ σ' : State} {op : Op} (hr : Reach c φ σ) (he : step c σ op = .ok σ') (a : Nat) (h : (σ'.kid a).born = false) :
    (σ.kid a).born = false := by
  cases hb : (σ.kid a).born with
  | false => rfl
  | true =>
    have := VSteps.keeps (P := fun v : View => v.k.born = true) (fun v w hv st => by
      cases st <;> (try exact hv) <;> grind [Kid.new]) ((sim_step he hr.any.base.1 hr.any.base.2 (adm_any _ op)).1 a) hb
    have e : (view σ' a).k = σ'.kid a := rfl
    rw [e, h] at this; simp at this

/-- a supervisor that is shut down does nothing of interest -/
theorem dead_step {c : Conf} {σ σ' : State} {op : Op} (hp : (∀ o, op ≠ .pInit o) ∧ op ≠ .pStart ∧ ∀ o, op ≠ .pShut o)
    (hs : σ.st = .shutDown) (he : step c σ op = .ok σ') : σ'.st = σ.st ∧ σ'.initFails = σ.initFails := by
  cases op with
  | recv o =>
    simp only [step] at he
    split at he
    · injection he with he; subst he; exact ⟨rfl, rfl⟩
    · rw [if_pos hs] at he; injection he with he; subst he; exact ⟨rfl, rfl⟩
  | pInit o => exact absurd rfl (hp.1 o)
  | pStart => exact absurd rfl hp.2.1
  | pShut o => exact absurd rfl (hp.2.2 o)
  | create => simp only [step] at he; injection he with he; subst he; exact ⟨rfl, rfl⟩
  | spawn => simp only [step] at he; injection he with he; subst he; exact ⟨rfl, rfl⟩
  | escalate => simp only [step] at he; injection he with he; subst he; exact ⟨rfl, rfl⟩
  | down =>
    simp only [step, doShutdownSelf] at he
    rw [if_neg (by rw [hs]; decide)] at he
    injection he with he; subst he; exact ⟨rfl, rfl⟩
  | contInit o => simp only [step] at he; rw [if_neg (by rw [hs]; simp)] at he; simp at he
  | cont o => simp only [step] at he; rw [if_neg (by rw [hs]; simp)] at he; simp at he
  | finish => simp only [step] at he; rw [if_neg (by rw [hs]; simp)] at he; simp at he
  | fired a =>
    simp only [step] at he
    split at he
    · simp at he
    · split at he
      · split at he <;> (injection he with he; subst he; exact ⟨rfl, rfl⟩)
      · simp at he
  | kidRecv a lost =>
    simp only [step, kidRecv] at he
    split at he
    · injection he with he; subst he; exact ⟨rfl, rfl⟩
    · split at he
      · injection he with he; subst he; exact ⟨rfl, rfl⟩
      · split at he
        · injection he with he; subst he; exact ⟨rfl, rfl⟩
        · injection he with he; subst he; split <;> exact ⟨rfl, rfl⟩
        · injection he with he; subst he; exact ⟨rfl, rfl⟩
  | flush a =>
    simp only [step] at he
    split at he <;> (injection he with he; subst he; exact ⟨rfl, rfl⟩)
  | drop | initTmoSelf | initTmo | kidInit | kidDown | kidShut =>
    simp only [step] at he
    split at he
    · injection he with he; subst he; exact ⟨rfl, rfl⟩
    · simp at he

theorem own_p {p : Path} {op : Op} {σ : State} (h : Own s p σ op) : (∀ o, op ≠ .pInit o) ∧ op ≠ .pStart ∧ ∀ o, op ≠ .pShut o := by
  refine ⟨?_, ?_, ?_⟩ <;> (intros; intro e; subst e; exact h)

theorem rank6 {x : AState} : x.rank ≤ 5 ∨ x = .shutDown := by cases x <;> simp [AState.rank]

theorem own_delta {c : Conf} {σ σ' : State} {op : Op} (hc : c.root = false) (hr : Reach c φ σ)
    (hp : (∀ o, op ≠ .pInit o) ∧ op ≠ .pStart ∧ ∀ o, op ≠ .pShut o) (he : step c σ op = .ok σ') : Delta (sview σ) (sview σ') := by
  have hsub := hr.sub hc
  have hq : ∀ m ∈ σ.q, m ≠ .initReqSelf ∧ m ≠ .startSelf := by
    intro m hm
    cases hi : isSelf m with
    | true =>
      have := hsub.2 m (by simp only [sview, List.mem_filter]; exact ⟨hm, hi⟩)
      subst this; simp
    | false => constructor <;> (intro e; subst e; simp [isSelf] at hi)
  refine delta hc (ss_step (nr := ⟨true, true, true⟩) he (fun _ => ?_) (fun _ => ?_) (fun _ => hp.2.2))
  · cases op <;> (try trivial)
    · intro t h2; exact (hq _ (by rw [h2]; simp)).1 rfl
    · exact hp.1 _ rfl
  · cases op <;> (try trivial)
    · intro t h2; exact (hq _ (by rw [h2]; simp)).2 rfl
    · exact hp.2.1 rfl

theorem own_seen {c c' : Conf} {a : Nat} {σ σ' τ : State} {op : Op} (hc : c.root = false) (hr : Reach c φ σ)
    (hp : (∀ o, op ≠ .pInit o) ∧ op ≠ .pStart ∧ ∀ o, op ≠ .pShut o) (he : step c σ op = .ok σ') (ht : Reach c' φ τ) (hk : τ.kid a = mirror σ) :
    Reach c' φ (seen a σ σ' τ) := by
  refine seen_reach ht hk (own_delta hc hr hp he) ?_ (answers_req hr)
  rcases rank6 (x := σ.st) with h | h
  · exact .inl h
  · exact .inr (dead_step hp h he)

theorem kids_step {c : Conf} {σ σ' : State} {op : Op} (hr : Reach c φ σ) (he : step c σ op = .ok σ') (a : Nat) (hn : ¬ kidOp a op) : Kids σ σ' a := by
  rcases kid_step he a hn with h | ⟨h1, h2⟩
  · exact .inl h
  · refine .inr ⟨?_, h2⟩
    cases hb : (σ.kid a).born with
    | false => rfl
    | true => exact absurd (fresh_born hr.base.1 hb) (Nat.not_lt.2 h1)

theorem own_kids {c : Conf} {p : Path} {σ σ' : State} {op : Op} (hr : Reach c φ σ) (he : step c σ op = .ok σ') (a : Nat) (h : Own s p σ op)
    (hs : s.sup (a :: p) = true) : Kids σ σ' a := by
  by_cases hk : kidOp a op
  · have hb : (σ.kid a).born = false := by
      cases op <;> simp only [kidOp] at hk <;> (subst hk; simp only [Own] at h; rw [hs] at h; simpa using h)
    left
    cases op <;> simp only [kidOp] at hk <;> subst hk
    · simp only [step, kidRecv] at he
      split at he
      · injection he with he; subst he; rfl
      · rw [if_pos (.inl hb)] at he
        injection he with he; subst he; rfl
    all_goals
      simp only [step] at he
      rw [if_neg (by simp [hb])] at he
      simp at he
  · exact kids_step hr he a hk

theorem G.own (h : G s φ T) {p : Path} {op : Op} {σ' : State} (hm : Member s T p) (ho : Own s p (T p) op) (ha : Adm φ (T p) op)
    (he : step (s.conf p) (T p) op = .ok σ') : G s φ (change T p σ') := by
  have hr : Reach (s.conf p) φ σ' := .step op (h.reach p) ha he
  have hk : ∀ a, s.sup (a :: p) = true → Kids (T p) σ' a := fun a hs => own_kids (h.reach p) he a ho hs
  cases p with
  | nil => exact h.put0 hr hk (born_keeps (h.reach _) he)
  | cons b q =>
    refine h.put2 hm hr ?_ hk (born_keeps (h.reach _) he) ?_ ?_ rfl
    · exact own_seen (conf_sub s b q) (h.reach _) (own_p ho) he (h.reach q) (h.cons q b hm.2.1 hm.2.2)
    · simp [seen, upd]
    · intro a hne; simp [seen, upd, hne]

/-! ## messages of the parent -/

theorem kidRecv_taken {τ : State} {a : Nat} {m : Dn} {t : List Dn} (h : τ.to a = m :: t) (hs : (τ.kid a).st = .shuttingDown ∨ (τ.kid a).st = .shutDown) :
    kidRecv a true τ = .ok (taken a τ) := by
  unfold kidRecv taken
  rw [h]
  simp only
  rw [if_pos (by rcases hs with h | h <;> simp [h])]
  simp

/-- the state of the child when it starts to handle the message -/
def begun (m : Dn) (σ : State) : State :=
  match m with
  | .initReq => { σ with initReq := true }
  | .start => if σ.st = .initialized then { σ with st := .operational } else σ
  | .shutReq => startShutdown σ

theorem kidRecv_begun {τ : State} {a : Nat} {m : Dn} {t : List Dn} {σ : State} (h : τ.to a = m :: t) (hk : τ.kid a = mirror σ) (hs : σ.st ≠ .shutDown) :
    kidRecv a false τ = .ok { taken a τ with kid := upd τ.kid a (mirror (begun m σ)) } := by
  unfold kidRecv taken
  rw [h]
  simp only [List.tail_cons]
  rw [if_neg (by rw [hk]; simp [mirror, hs])]
  cases m with
  | initReq => simp only; rw [hk]; rfl
  | start =>
    simp only
    rw [hk]
    have e : (mirror σ).st = σ.st := rfl
    rw [e]
    unfold begun
    simp only
    split
    · rfl
    · have : upd τ.kid a (mirror σ) = τ.kid := by
        funext b; unfold upd; split
        · rename_i hb; subst hb; exact hk.symm
        · rfl
      rw [this]
  | shutReq => simp only; rw [hk]; rfl

theorem seen_begun {a : Nat} {m : Dn} {σ σ' τ : State} (hs : σ.st ≠ .shutDown) :
    seen a (begun m σ) σ' { taken a τ with kid := upd τ.kid a (mirror (begun m σ)) } = seen a σ σ' (taken a τ) := by
  have e : report (begun m σ) σ' = report σ σ' := by
    unfold report
    cases m with
    | initReq => rfl
    | start =>
      unfold begun
      simp only
      split
      · rename_i h; simp [h]
      · rfl
    | shutReq =>
      unfold begun
      simp only
      congr 1
      by_cases h : σ'.st = .shutDown
      · rw [if_pos ⟨h, by simp [startShutdown]⟩, if_pos ⟨h, hs⟩]
      · rw [if_neg (by simp [h]), if_neg (by simp [h])]
  unfold seen taken
  simp only [upd_upd, e]

theorem begun_delta {c : Conf} {σ σ' : State} {m : Dn} {o : Ora} (hc : c.root = false) (he : step c σ (opOf o m) = .ok σ') :
    Delta (sview (begun m σ)) (sview σ') := by
  cases m with
  | initReq =>
    simp only [opOf, step] at he
    split at he
    · unfold onInitReq at he
      simp only at he
      split at he
      · exact delta hc (ss_actorInitContinue he)
      · injection he with he; subst he
        exact delta hc (.refl _)
    · simp at he
  | start =>
    simp only [opOf, step] at he
    rw [if_pos hc] at he
    injection he with he; subst he
    unfold onStart begun
    simp only
    split
    · split <;> exact ⟨Nat.le_refl _, fun h => absurd h (Nat.lt_irrefl _), .inl rfl, .inl ⟨rfl, rfl, rfl⟩⟩
    · exact ⟨Nat.le_refl _, fun h => absurd h (Nat.lt_irrefl _), .inl rfl, .inl ⟨rfl, rfl, rfl⟩⟩
  | shutReq =>
    simp only [opOf, step] at he
    split at he
    · exact delta hc (ss_shutdownContinue he)
    · simp at he

theorem G.lost (h : G s φ T) {p : Path} {a : Nat} {m : Dn} {t : List Dn} (hm : Member s T (a :: p)) (hq : (T p).to a = m :: t)
    (hs : (T (a :: p)).st = .shuttingDown ∨ (T (a :: p)).st = .shutDown) : G s φ (put T p (taken a (T p))) := by
  have hk := h.cons p a hm.2.1 hm.2.2
  have hr : Reach (s.conf p) φ (taken a (T p)) := .step (.kidRecv a true) (h.reach p) trivial (kidRecv_taken hq (by rw [hk]; exact hs))
  have e : put T p (taken a (T p)) = put (put T p (taken a (T p))) (a :: p) (T (a :: p)) := by
    funext x
    by_cases hx : x = a :: p
    · subst hx; rw [put_self, put_ne _ _ (Ne.symm (cons_ne a p))]
    · rw [put_ne (x := x) _ _ hx]
  rw [e]
  exact h.put2 hm (h.reach _) hr (fun b _ => .inl rfl) (fun b hb => hb) hk (fun b _ => rfl) rfl

theorem G.deliver (h : G s φ T) {p : Path} {a : Nat} {m : Dn} {t : List Dn} {o : Ora} {σ' : State} (hm : Member s T (a :: p))
    (hq : (T p).to a = m :: t) (hs : (T (a :: p)).st ≠ .shutDown) (ha : Adm φ (T (a :: p)) (opOf o m))
    (he : step (s.conf (a :: p)) (T (a :: p)) (opOf o m) = .ok σ') : G s φ (change (put T p (taken a (T p))) (a :: p) σ') := by
  have hk := h.cons p a hm.2.1 hm.2.2
  have hr : Reach (s.conf (a :: p)) φ σ' := .step _ (h.reach _) ha he
  have hr1 : Reach (s.conf p) φ { taken a (T p) with kid := upd (T p).kid a (mirror (begun m (T (a :: p)))) } :=
    .step (.kidRecv a false) (h.reach p) trivial (kidRecv_begun hq hk hs)
  have hreq := answers_req (h.reach (a :: p))
  have hr2 := seen_reach (a := a) (σ := begun m (T (a :: p))) (σ' := σ') hr1 (by simp [upd]) (begun_delta (conf_sub s a p) he) (.inl ?_) ?_
  · rw [seen_begun hs] at hr2
    have e : change (put T p (taken a (T p))) (a :: p) σ' = put (put T p (seen a (T (a :: p)) σ' (taken a (T p)))) (a :: p) σ' := by
      unfold change
      simp only [put_self, put_ne (x := a :: p) T _ (Ne.symm (cons_ne a p))]
      funext x
      unfold put
      split
      · rfl
      · split <;> rfl
    rw [e]
    refine h.put2 hm hr hr2 (fun b hb => kids_step (h.reach _) he b ?_) (born_keeps (h.reach _) he) (by simp [seen, upd])
      (fun b hne => by simp [seen, upd, hne, taken]) rfl
    cases m <;> simp [opOf, kidOp]
  · rcases rank6 (x := (begun m (T (a :: p))).st) with h6 | h6
    · exact h6
    · cases m with
      | initReq => exact absurd h6 hs
      | start =>
        unfold begun at h6
        simp only at h6
        split at h6
        · simp at h6
        · exact absurd h6 hs
      | shutReq => simp [begun, startShutdown] at h6
  · cases m with
    | initReq =>
      intro _
      simp only [opOf, step] at he
      split at he
      · rename_i hx; exact hx.2.2
      · simp at he
    | start =>
      unfold begun
      simp only
      split <;> exact hreq
    | shutReq => exact hreq

theorem TReach.g (h : TReach s φ T) : G s φ T := by
  induction h with
  | init => exact ⟨fun _ => .init, fun _ _ _ h => absurd h (by simp [Tree.init, State.init, Kid.no]), fun _ _ _ => rfl⟩
  | own p op σ' _ hm ho ha he ih => exact ih.own hm ho ha he
  | deliver p a m t o σ' _ hm hq hs ha he ih => exact ih.deliver hm hq hs ha he
  | lost p a m t _ hm hq hs ih => exact ih.lost hm hq hs

end Verif.Tree
