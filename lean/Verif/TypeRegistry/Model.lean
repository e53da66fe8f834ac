/-!
# Model of the registration of message types

Source: `src/rotor/message.cpp:14-25`, `include/rotor/message.h:75-77,112-115`.

Every shared object that instantiates `message_t<T>` may have its own copy of the type name, so
the same class can be registered several times, with different pointers to equal texts.
-/

namespace Verif.TypeRegistry

/-- an address in memory -/
abbrev Ptr := Nat

/-- `static type_map_t type_map`, `src/rotor/message.cpp:15` -/
abbrev TypeMap := List (String × Ptr)

/-- `type_map.find(name)` -/
def TypeMap.find (m : TypeMap) (name : String) : Option Ptr := (List.find? (fun e => e.1 == name) m).map (·.2)

/-- `register_type`, `src/rotor/message.cpp:14-25`.  `mem p` is the zero-terminated text at address
`p`; the argument is `type_index.name()`.  `type_map[name] = ptr` is an insertion here, because the
name was not found. -/
def register (mem : Ptr → String) (m : TypeMap) (p : Ptr) : TypeMap × Ptr :=
  match m.find (mem p) with
  | some q => (m, q)
  | none => ((mem p, p) :: m, p)

/-- the registrations made by the static initializers of all modules, in the order they run; the
result lists the identity given to each -/
def registerAll (mem : Ptr → String) (m : TypeMap) : List Ptr → List Ptr
  | [] => []
  | p :: ps => (register mem m p).2 :: registerAll mem (register mem m p).1 ps

end Verif.TypeRegistry
