/-!
# Model of `extended_error_t`

Source: `src/rotor/extended_error.cpp`, `include/rotor/extended_error.h`.  Errors are heap objects
that refer to each other by pointer; the heap is a list, a pointer is an index into it.
Reference counting is not modelled: an object stays on the heap for ever.
-/

namespace Verif.ExtendedError

/-- fields of `extended_error_t`, `include/rotor/extended_error.h:37-48`; an `std::error_code` is its
numeric value (zero: no error) with the text its category gives; `request` is the text a stringifier
would produce for the request message -/
structure Obj where
  context : String
  ec : Nat
  ecText : String
  next : Option Nat
  request : Option String
deriving DecidableEq, Repr

abbrev Heap := List Obj

/-- `make_error`, `src/rotor/extended_error.cpp:39-42`: allocates, returns the pointer -/
def make (h : Heap) (o : Obj) : Heap × Nat := (h ++ [o], h.length)

/-- the `while` loop of `root`, `src/rotor/extended_error.cpp:32-36`; `none` if it needs more than
`fuel` iterations (or follows an invalid pointer) -/
def rootLoop (h : Heap) : Nat → Nat → Option Nat
  | 0, _ => none
  | fuel + 1, n => match h[n]? with
    | none => none
    | some o => match o.next with
      | none => some n
      | some m => rootLoop h fuel m

/-- `extended_error_t::root`, `src/rotor/extended_error.cpp:27-37` -/
def root (h : Heap) (fuel self : Nat) : Option Nat :=
  match h[self]? with
  | none => none
  | some o => match o.next with
    | none => some self
    | some n => rootLoop h fuel n

/-- `extended_error_t::message`, `src/rotor/extended_error.cpp:13-25`; `strf` tells whether a
stringifier was passed, it is not passed on to the nested call; `none` if the recursion is deeper
than `fuel` -/
def message (h : Heap) (strf : Bool) : Nat → Nat → Option String
  | 0, _ => none
  | fuel + 1, self => match h[self]? with
    | none => none
    | some o =>
      let own := o.context ++ " " ++ o.ecText ++
        (match o.request with | some r => if strf then " [" ++ r ++ "]" else "" | none => "")
      match o.next with
      | none => some own
      | some n => match message h false fuel n with
        | none => none
        | some t => some (own ++ " <- " ++ t)

end Verif.ExtendedError
