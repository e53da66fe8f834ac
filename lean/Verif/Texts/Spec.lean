import Verif.Texts.Model
/-!
# What is expected of the texts
-/

namespace Verif.Texts

/-- the stringifier as it is, without a derived class -/
def plain : Text → Text → Option Text := fun _ _ => none

/-- the name under which a type of messages is shown -/
def name : Kind → Text
  | .unsubscription => c!"r::unsubscription"
  | .unsubscriptionExternal => c!"r::unsubscription_external"
  | .subscription => c!"r::subscription"
  | .externalSubscription => c!"r::external_subscription"
  | .commitUnsubscription => c!"r::commit_unsubscription"
  | .handlerCall => c!"r::handler_call"
  | .initRequest => c!"r::init_request"
  | .initResponse => c!"r::init_response"
  | .startTrigger => c!"r::start_trigger"
  | .shutdownTrigger => c!"r::shutdown_trigger"
  | .shutdownRequest => c!"r::shutdown_request"
  | .shutdownResponse => c!"r::shutdown_response"
  | .createActor => c!"r::create_actor"
  | .spawnActor => c!"r::spawn_actor"
  | .registrationRequest => c!"r::registration_request"
  | .registrationResponse => c!"r::registration_response"
  | .deregistrationNotify => c!"r::deregistration_notify"
  | .deregistrationService => c!"r::deregistration_service"
  | .discoveryRequest => c!"r::discovery_request"
  | .discoveryResponse => c!"r::discovery_response"
  | .discoveryPromise => c!"r::discovery_promise"
  | .discoveryFuture => c!"r::discovery_future"
  | .discoveryCancel => c!"r::discovery_cancel"
  | .linkRequest => c!"r::link_request"
  | .linkResponse => c!"r::link_response"
  | .unlinkNotify => c!"r::unlink_notify"
  | .unlinkRequest => c!"r::unlink_request"
  | .unlinkResponse => c!"r::unlink_response"
  | .user => c!"[?]"

/-- a text up to its first blank -/
def firstWord (t : Text) : Text := t.takeWhile (fun c => c != ' ')

/-- `a` is a part of `b` -/
def Within (a b : Text) : Prop := ∃ pre post, b = pre ++ a ++ post

/-- `a` is the message that `b` is about, directly or through further handler calls -/
inductive Inside : Msg → Msg → Prop
  | self (m : Msg) : Inside m m
  | call (a m : Msg) (d actor : Text) : Inside a m → Inside a (.handlerCall d m actor)

/-- what a reader wants to find in the text: addresses, names, types and numbers of requests; the answer to a discovery has no address if it is an
error -/
def parts : Msg → List Text
  | .unsubscription d p | .unsubscriptionExternal d p | .subscription d p | .externalSubscription d p | .commitUnsubscription d p => [d, p.addr, p.type]
  | .handlerCall d _ actor => [d, actor]
  | .initRequest d id => [d, num id]
  | .initResponse d id origin _ | .shutdownRequest d id origin _ | .shutdownResponse d id origin _ => [d, num id, origin]
  | .startTrigger d => [d]
  | .shutdownTrigger d actor _ => [d, actor]
  | .createActor d type => [d, type]
  | .spawnActor d spawner => [d, spawner]
  | .registrationRequest d id name addr | .registrationResponse d id name addr _ => [d, num id, name, addr]
  | .deregistrationNotify d addr => [d, addr]
  | .deregistrationService d name | .discoveryRequest d name | .discoveryPromise d name => [d, name]
  | .discoveryResponse d name none res | .discoveryFuture d name none res => [d, name, res]
  | .discoveryResponse d name (some _) _ | .discoveryFuture d name (some _) _ => [d, name]
  | .discoveryCancel d source => [d, source]
  | .linkRequest d origin | .linkResponse d origin _ => [d, origin]
  | .unlinkNotify d client => [d, client]
  | .unlinkRequest d server | .unlinkResponse d server _ => [d, server]
  | .user d type _ => [d, type]

/-- the message with another error (reason); none if it cannot carry one -/
def withError (e : Option Text) : Msg → Option Msg
  | .initResponse d i o _ => some (.initResponse d i o e)
  | .shutdownTrigger d a _ => some (.shutdownTrigger d a e)
  | .shutdownRequest d i o _ => some (.shutdownRequest d i o e)
  | .shutdownResponse d i o _ => some (.shutdownResponse d i o e)
  | .registrationResponse d i n a _ => some (.registrationResponse d i n a e)
  | .discoveryResponse d n _ r => some (.discoveryResponse d n e r)
  | .discoveryFuture d n _ r => some (.discoveryFuture d n e r)
  | .linkResponse d o _ => some (.linkResponse d o e)
  | .unlinkResponse d s _ => some (.unlinkResponse d s e)
  | _ => none

end Verif.Texts
