import Verif.Basic.AMap
import Verif.Subscription.Props
import Verif.Registry.Props
import Verif.Resources.Props
import Verif.ExtendedError.Props
import Verif.TypeRegistry.Props
import Verif.Locality.Props
import Verif.Config.Props
import Verif.AddressMapping.Props
import Verif.Spawner.Props
import Verif.ThreadTimers.Props
import Verif.ShutdownFlag.Props
import Verif.ThreadLoop.Props
import Verif.Fltk.Props
import Verif.FltkLoop.Cases
import Verif.FltkLoop.Refine
import Verif.Requests.Props
import Verif.Requests.Calls
import Verif.RequestIds.Props
import Verif.Net.Props
import Verif.Inspect.Props
import Verif.Routing.Props
import Verif.LoopTimers.Props
import Verif.Lifecycle.Props
import Verif.Lifetime.Props
import Verif.Lifetime.Held
import Verif.Lifetime.Early
import Verif.Link.Cases
import Verif.Link.RecordCases
import Verif.Children.Cases
import Verif.Children.LineCases
import Verif.Children.CauseCases
import Verif.Tree.Cases
import Verif.RegPlugin.Props
import Verif.RegPlugin.Cases
import Verif.RegPlugin.Final
import Verif.RegPlugin.SafeCases
import Verif.EvLoop.Props
import Verif.AsioLoop.Props
import Verif.Starter.Cases
import Verif.RegTree.Props
import Verif.WxLoop.Props
import Verif.Reentry.Props
import Verif.Redirect.Props
import Verif.HandlerId.Props
import Verif.Reasons.Props
import Verif.Strands.Cases
import Verif.MsgCount.Props
import Verif.ShutTimeout.Props
import Verif.SupRefs.Props
import Verif.Conformance.Spawner
import Verif.Conformance.Link
import Verif.Conformance.Registry
import Verif.Conformance.Requests
import Verif.Conformance.Children
import Verif.Conformance.Timers
import Verif.Conformance.Lifecycle
import Verif.Configure.Model
import Verif.Configure.Props
import Verif.SupTeardown.Model
import Verif.SupTeardown.Props
import Verif.SupTeardown.Cases
import Verif.Net.Undo
import Verif.Children.Smooth
import Verif.Tree.Up
import Verif.Tree.UpCases
import Verif.Lifecycle.Truth
import Verif.ThreadTimers.Plain
import Verif.Starter.Asked
import Verif.RegPlugin.Cancel
import Verif.HandlerId.Turn
import Verif.Strands.Each
import Verif.AsioLoop.Each
import Verif.EvLoop.Each
import Verif.WxLoop.Each
import Verif.Fltk.Each
import Verif.FltkLoop.Each
import Verif.LoopTimers.Each
import Verif.Redirect.Each
import Verif.MsgCount.Each
import Verif.RegTree.Each
import Verif.Routing.Each
import Verif.ShutdownFlag.Each
import Verif.AddressMapping.Each
import Verif.Inspect.Each
import Verif.Configure.Each
import Verif.SupRefs.Each
import Verif.Locality.Each
import Verif.RequestIds.Each
import Verif.ExtendedError.Each
import Verif.SpawnBuilder.Props
import Verif.Texts.Props
import Verif.Intercept.Props
import Verif.AsioGuard.Timers
import Verif.Naming.Cases
import Verif.Drain.Last
import Verif.Farewell.Cases
import Verif.InitCancel.Cases
import Verif.TextMaker.Cases
import Verif.Across.Cases
