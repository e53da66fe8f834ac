import Verif.Children.Smooth
import Verif.Tree.Props
/-!
# A tree to which nothing bad happens starts completely
-/

namespace Verif.Tree
open Verif Verif.Children

variable {s : Sys} {φ : Fl} {T T' : Tree}

/-- the states reached while nobody shuts an actor down, and no initialization of an actor that is not a supervisor of the tree fails or
takes too long (`Benign`); what the supervisors do about their messages is not restricted -/
inductive TSmooth (s : Sys) (φ : Fl) : Tree → Prop
  | init : TSmooth s φ (.init s)
  | own {T : Tree} (p : Path) (op : Op) (σ' : State) : TSmooth s φ T → Member s T p → Own s p (T p) op → Adm φ (T p) op → Benign op →
      step (s.conf p) (T p) op = .ok σ' → TSmooth s φ (change T p σ')
  | deliver {T : Tree} (p : Path) (a : Nat) (m : Dn) (t : List Dn) (o : Ora) (σ' : State) : TSmooth s φ T → Member s T (a :: p) → (T p).to a = m :: t →
      (T (a :: p)).st ≠ .shutDown → Adm φ (T (a :: p)) (opOf o m) → step (s.conf (a :: p)) (T (a :: p)) (opOf o m) = .ok σ' →
      TSmooth s φ (change (put T p (taken a (T p))) (a :: p) σ')
  | lost {T : Tree} (p : Path) (a : Nat) (m : Dn) (t : List Dn) : TSmooth s φ T → Member s T (a :: p) → (T p).to a = m :: t →
      (T (a :: p)).st = .shuttingDown ∨ (T (a :: p)).st = .shutDown → TSmooth s φ (put T p (taken a (T p)))

theorem TSmooth.reach (h : TSmooth s φ T) : TReach s φ T := by
  induction h with
  | init => exact .init
  | own p op σ' _ hm ho ha _ he ih => exact .own p op σ' ih hm ho ha he
  | deliver p a m t o σ' _ hm hq hs ha he ih => exact .deliver p a m t o σ' ih hm hq hs ha he
  | lost p a m t _ hm hq hs ih => exact .lost p a m t ih hm hq hs

theorem smooth_report {σ σ' : State} (h : Smooth σ) (h' : Smooth σ') : ∀ m ∈ report σ σ', m = .initRes true := by
  have h4 := h'.st
  have h5 : σ'.st ≠ .shutDown := fun hx => by rw [hx] at h4; simp [AState.rank] at h4
  unfold report
  rw [h.wants, h'.wants, h.fails, h'.fails]
  simp only [Nat.sub_self, List.replicate_zero, List.nil_append, h5, false_and, if_false, if_true, List.append_nil]
  intro m hm
  split at hm <;> simp at hm
  exact hm

theorem smooth_seen {σ σ' τ : State} (a : Nat) (h : Smooth σ) (h' : Smooth σ') (ht : Smooth τ) : Smooth (seen a σ σ' τ) := by
  refine ⟨ht.wants, ht.fails, ht.st, ht.q, fun b m hm => ?_, ht.to, ht.setKid a h'.st⟩
  simp only [seen, upd] at hm
  split at hm
  · rcases List.mem_append.mp hm with h1 | h1
    · exact ht.out a m h1
    · exact smooth_report h h' m h1
  · exact ht.out b m hm

theorem smooth_put {p : Path} {σ : State} (h : ∀ x, Smooth (T x)) (hs : Smooth σ) : ∀ x, Smooth (put T p σ x) := by
  intro x
  unfold put
  split
  · exact hs
  · exact h x

theorem smooth_change {p : Path} {σ' : State} (h : ∀ x, Smooth (T x)) (hs : Smooth σ') : ∀ x, Smooth (change T p σ' x) := by
  cases p with
  | nil => exact smooth_put h hs
  | cons a p => exact smooth_put (smooth_put h (smooth_seen a (h _) hs (h p))) hs

theorem smooth_taken {σ : State} (a : Nat) (h : Smooth σ) : Smooth (taken a σ) := by
  refine ⟨h.wants, h.fails, h.st, h.q, h.out, fun b => ?_, h.kid⟩
  simp only [taken, upd]
  split
  · exact fun hx => h.to a (List.mem_of_mem_tail hx)
  · exact h.to b

theorem TSmooth.all (h : TSmooth s φ T) : ∀ x, Smooth (T x) := by
  induction h with
  | init => exact fun x => .init _
  | own p op σ' _ _ _ _ hb he ih => exact smooth_change ih ((ih p).step hb he)
  | deliver p a m t o σ' _ _ hq _ _ he ih =>
    refine smooth_change (smooth_put ih (smooth_taken a (ih p))) ((ih (a :: p)).step ?_ he)
    cases m with
    | initReq => trivial
    | start => trivial
    | shutReq => exact ((ih p).to a (by rw [hq]; simp)).elim
  | lost p a m t _ _ _ _ ih => exact smooth_put ih (smooth_taken a (ih p))

/-- no actor of the tree begins to shut down unless somebody shuts down an actor, or an initialization fails or takes too long -/
theorem C53_calm (h : TSmooth s φ T) : All s T (fun x => x ≠ .shuttingDown ∧ x ≠ .shutDown) := by
  have key : ∀ x : AState, x.rank ≤ 4 → x ≠ .shuttingDown ∧ x ≠ .shutDown := by
    intro x; cases x <;> simp [AState.rank]
  exact fun p _ => ⟨key _ (h.all p).st, fun a _ => key _ ((h.all p).kid a)⟩

/-- and then, when nothing is going on in the tree any more, all actors are operational -/
theorem C53_up (hf : Fair s φ) (h : TSmooth s φ T) (hs : Settled s T) : All s T (fun x => x = .operational) := by
  have hc := C53_calm h
  rcases C53_ends_partial hf h.reach hs with h1 | h1
  · intro p hm
    refine ⟨?_, fun a ha => ?_⟩
    · rcases (h1.2 p hm).1 with h2 | h2
      · exact h2
      · exact ((hc p hm).1.2 h2).elim
    · rcases (h1.2 p hm).2 a ha with h2 | h2
      · exact h2
      · exact (((hc p hm).2 a ha).2 h2).elim
  · exact ((hc [] trivial).1.2 (h1 [] trivial).1).elim

end Verif.Tree
