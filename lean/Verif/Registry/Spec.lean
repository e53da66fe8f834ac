import Verif.Registry.Model

/-!
# What a registry is supposed to do

One partial function from names to addresses, and the list of the waiting promises, oldest first.
-/

namespace Verif.Registry

/-- the abstract registry -/
structure Spec where
  owner : Name → Option Addr
  waiting : List Promise

/-- nothing registered -/
def Spec.init : Spec := ⟨fun _ => none, []⟩

/-- a registry that handles one message: `Spec.Step before message replies after` -/
inductive Spec.Step : Spec → Msg → List Reply → Spec → Prop
  /-- a taken name is refused, nothing changes -/
  | refuse (s r n a) : s.owner n ≠ none → Spec.Step s (.register r n a) [.registration r (some .alreadyRegistered)] s
  /-- a free name is granted; all who wait for it are told, in the order they asked -/
  | grant (s r n a) : s.owner n = none →
      Spec.Step s (.register r n a)
        (.registration r none :: (s.waiting.filter (fun p => p.name = n)).map (fun p => .future p.req (.ok a)))
        ⟨fun m => if m = n then some a else s.owner m, s.waiting.filter (fun p => p.name ≠ n)⟩
  /-- withdrawing an address frees exactly the names it owns -/
  | withdraw (s a) : Spec.Step s (.deregister a) [] ⟨fun m => if s.owner m = some a then none else s.owner m, s.waiting⟩
  /-- withdrawing a name frees that name -/
  | release (s n) : Spec.Step s (.deregisterName n) [] ⟨fun m => if m = n then none else s.owner m, s.waiting⟩
  | found (s r n a) : s.owner n = some a → Spec.Step s (.discover r n) [.discovery r (.ok a)] s
  | notFound (s r n) : s.owner n = none → Spec.Step s (.discover r n) [.discovery r (.error .unknownService)] s
  | atOnce (s r n a) : s.owner n = some a → Spec.Step s (.promise r n) [.future r (.ok a)] s
  | wait (s r n) : s.owner n = none → Spec.Step s (.promise r n) [] ⟨s.owner, s.waiting ++ [⟨r, n⟩]⟩
  /-- cancelling removes the latest matching promise and answers it -/
  | cancel (s id src pre p post) : s.waiting = pre ++ p :: post → p.req = ⟨id, src⟩ →
      (∀ q ∈ post, q.req ≠ ⟨id, src⟩) →
      Spec.Step s (.cancel id src) [.future p.req (.error .cancelled)] ⟨s.owner, pre ++ post⟩
  | cancelNothing (s id src) : (∀ q ∈ s.waiting, q.req ≠ ⟨id, src⟩) → Spec.Step s (.cancel id src) [] s

/-- a whole history -/
inductive Spec.Run : Spec → List Msg → List Reply → Spec → Prop
  | nil (s) : Spec.Run s [] [] s
  | cons {s m out s1 ms out' s2} : Spec.Step s m out s1 → Spec.Run s1 ms out' s2 → Spec.Run s (m :: ms) (out ++ out') s2

/-- how many times a promise with request `r` was asked for -/
def asked (r : Req) (ms : List Msg) : Nat :=
  ms.countP (fun m => match m with | .promise r' _ => r' = r | _ => false)

/-- how many times promise `r` was answered -/
def answered (r : Req) (out : List Reply) : Nat :=
  out.countP (fun o => match o with | .future r' _ => r' = r | _ => false)

/-- how many promises with request `r` still wait -/
def pending (r : Req) (ps : List Promise) : Nat := ps.countP (fun p => p.req = r)

end Verif.Registry
