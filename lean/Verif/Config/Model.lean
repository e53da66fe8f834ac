/-!
# Model of the actor and supervisor builders

Sources: `include/rotor/actor_config.h`, `include/rotor/supervisor_config.h`,
`include/rotor/asio/supervisor_config_asio.h`, `include/rotor/ev/supervisor_config_ev.h`,
`include/rotor/wx/supervisor_config_wx.h`, `include/rotor/supervisor.h:351-365,622-634`.
-/

namespace Verif.Config

/-- `supervisor_config_t` with the base `actor_config_t` (`actor_config.h:62-89`,
`supervisor_config.h:23-69`).  Simplification: durations are integers; the shutdown flag, queue size
and polling settings, which no validation looks at, are left out.  `extra i` tells whether the
back-end specific setting guarded by bit `i` was given (strand, loop, ...). -/
structure Cfg where
  initTimeout : Int
  shutdownTimeout : Int
  spawnerAddress : Option Nat
  escalateFailure : Bool
  autoshutdownSupervisor : Bool
  createRegistry : Bool
  synchronizeStart : Bool
  registryAddress : Option Nat
  extra : Nat → Bool

/-- default member initializers (`actor_config.h:82-85`, `supervisor_config.h:27-42`) -/
def Cfg.default : Cfg := ⟨0, 0, none, false, false, false, false, none, fun _ => false⟩

/-- `actor_config_builder_t`: the configuration and the mask of missing settings
(`actor_config.h:128-131`) -/
structure Builder where
  mask : BitVec 32
  config : Cfg

/-- the setters of the builders -/
inductive Setter where
  | timeout (t : Int)
  | initTimeout (t : Int)
  | shutdownTimeout (t : Int)
  | spawnerAddress (a : Option Nat)
  | escalateFailure (b : Bool)
  | autoshutdownSupervisor (b : Bool)
  | createRegistry (b : Bool)
  | synchronizeStart (b : Bool)
  | registryAddress (a : Option Nat)
  | extra (bit : Nat)

/-- `INIT_TIMEOUT`, `actor_config.h:110` -/
def initBit : BitVec 32 := 1#32 <<< 0
/-- `SHUTDOWN_TIMEOUT`, `actor_config.h:113` -/
def shutdownBit : BitVec 32 := 1#32 <<< 1

/-- `requirements_mask`: `actor_config.h:116`, and the bits added by a back-end
(`supervisor_config_asio.h:55`, `supervisor_config_ev.h:45`, `supervisor_config_wx.h:49`) -/
def requirements (extraBits : List Nat) : BitVec 32 :=
  extraBits.foldl (fun m i => m ||| (1#32 <<< i)) (initBit ||| shutdownBit)

/-- a new builder (`actor_config.h:131-140`) -/
def Builder.new (extraBits : List Nat) : Builder := ⟨requirements extraBits, .default⟩

/-- the setters (`actor_config.h:143-194`, `supervisor_config.h:82-103`,
`supervisor_config_asio.h:58-62`, `supervisor_config_ev.h:48-59`) -/
def Builder.set (b : Builder) : Setter → Builder
  | .timeout t => ⟨b.mask &&& (~~~initBit &&& ~~~shutdownBit), { b.config with initTimeout := t, shutdownTimeout := t }⟩
  | .initTimeout t => ⟨b.mask &&& ~~~initBit, { b.config with initTimeout := t }⟩
  | .shutdownTimeout t => ⟨b.mask &&& ~~~shutdownBit, { b.config with shutdownTimeout := t }⟩
  | .spawnerAddress a => { b with config := { b.config with spawnerAddress := a } }
  | .escalateFailure v => { b with config := { b.config with escalateFailure := v } }
  | .autoshutdownSupervisor v => { b with config := { b.config with autoshutdownSupervisor := v } }
  | .createRegistry v => { b with config := { b.config with createRegistry := v } }
  | .synchronizeStart v => { b with config := { b.config with synchronizeStart := v } }
  | .registryAddress a => { b with config := { b.config with registryAddress := a } }
  | .extra i => ⟨b.mask &&& ~~~(1#32 <<< i),
      { b.config with extra := fun j => if j = i then true else b.config.extra j }⟩

/-- `actor_config_builder_t::validate`, `actor_config.h:197` -/
def Builder.validateActor (b : Builder) : Bool := if b.mask ≠ 0#32 then false else true

/-- `supervisor_config_builder_t::validate`, `supervisor_config.h:134-140` -/
def Builder.validateSup (b : Builder) : Bool :=
  let r := b.validateActor
  if r then !(b.config.registryAddress.isSome && b.config.createRegistry) else r

/-- errors given to `system_context_t::on_error` -/
inductive Err where
  | actorMisconfigured | supervisorDefined
deriving DecidableEq, Repr

/-- the system context: the root supervisor, the actors built so far and the reported errors.
Simplification: `on_error` records and returns; the default implementation terminates the program
(`src/rotor/system_context.cpp:28-35`). -/
structure Ctx where
  root : Option Nat
  built : List Cfg
  errors : List Err

/-- `finish()` of an actor builder, `supervisor.h:622-634`; the actor is identified by its position
in `built`; the install action of a child is `child_manager`'s and always succeeds -/
def finishActor (c : Ctx) (b : Builder) (isSup : Bool) : Ctx × Option Nat :=
  if !(if isSup then b.validateSup else b.validateActor) then
    ({ c with errors := c.errors ++ [.actorMisconfigured] }, none)
  else ({ c with built := c.built ++ [b.config] }, some c.built.length)

/-- `finish()` of the builder made by `system_context_t::create_supervisor`, `supervisor.h:351-365`
with `622-634` -/
def finishRoot (c : Ctx) (b : Builder) : Ctx × Option Nat :=
  if !b.validateSup then ({ c with errors := c.errors ++ [.actorMisconfigured] }, none)
  else match c.root with
    | some _ => ({ c with errors := c.errors ++ [.supervisorDefined] }, none)
    | none => ({ c with root := some c.built.length, built := c.built ++ [b.config] }, some c.built.length)

end Verif.Config
