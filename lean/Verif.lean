import Verif.Common.Out
import Verif.Common.AMap
import Verif.Common.NatSet
import Verif.UniqueId.Props
import Verif.Index.Props
import Verif.Variants.Props
import Verif.Graph.Props
import Verif.Graph.TraverseProps
import Verif.Graph.PathProps
import Verif.Components.Props
import Verif.NodeBreaker.BusProps
import Verif.NodeBreaker.VLProps
import Verif.NodeBreaker.ConnectProps
import Verif.NodeBreaker.NodesProps
import Verif.BusBreaker.BusProps
import Verif.BusBreaker.VLProps
import Verif.Common.Dbl
import Verif.Common.Multi
import Verif.Tap.Props
import Verif.Tap.TfoProps
import Verif.Setpoint.Props
import Verif.Shunt.Props
import Verif.Curve.Props
import Verif.Limits.Props
import Verif.Anonymizer.Props
import Verif.Enums.Props
import Verif.PropMap.Props
import Verif.Extend.Props
import Verif.Listing.Props
import Verif.Finder.Props
import Verif.Convert.Props
import Verif.Flow.Props
import Verif.Hvdc.Props
import Verif.Adders.History
import Verif.Removal.Props
import Verif.Move.Props
import Verif.NetComponents.Props
import Verif.Xml.VersionProps
import Verif.Xml.ElementsProps
import Verif.Xml.ShuntProps
import Verif.Xml.SwitchProps
import Verif.Xml.IdentProps
import Verif.Xml.TerminalRefProps
import Verif.Setpoint.EffectProps
import Verif.Tap.EffectProps
import Verif.Shunt.EffectProps
import Verif.NetBuses.Model
import Verif.NetBuses.Lemmas
import Verif.NetBuses.Props
import Verif.Graph.Stateful
import Verif.NodeBreaker.Connectable
import Verif.NodeBreaker.ConnectableProps
import Verif.NodeBreaker.Lookup
import Verif.NodeBreaker.LookupLemmas
import Verif.NodeBreaker.LookupProps
import Verif.Graph.StatefulInv
import Verif.Traverse.Model
import Verif.Traverse.Spec
import Verif.Traverse.Lemmas
import Verif.Traverse.PureLemmas
import Verif.Traverse.Props
import Verif.XmlNet.Base
import Verif.XmlNet.BaseLemmas
import Verif.XmlNet.Injections
import Verif.XmlNet.AttrLemmas
import Verif.XmlNet.InjectionsProps
import Verif.XmlNet.Branches
import Verif.XmlNet.PlainLemmas
import Verif.XmlNet.BranchesProps
import Verif.XmlNet.Valid
import Verif.XmlNet.ImportLemmas
import Verif.XmlNet.ImportProps
import Verif.XmlNet.Levels
import Verif.XmlNet.LevelLemmas
import Verif.XmlNet.LevelsProps
import Verif.XmlNet.Net
import Verif.XmlNet.NetProps
import Verif.XmlNet.NetValid
import Verif.XmlNet.NetImportProps
import Verif.XmlNet.Accept
import Verif.XmlNet.AcceptLemmas
import Verif.XmlNet.AcceptSpec
import Verif.XmlNet.AcceptOrder
import Verif.XmlNet.AcceptProps
import Verif.XmlNet.Renamed
import Verif.XmlNet.RenamedLemmas
import Verif.XmlNet.RenamedOk
import Verif.XmlNet.AnonymousLemmas
import Verif.XmlNet.AnonymousProps
import Verif.Flow.TieLine
import Verif.Flow.TieLineProps
import Verif.Measure.Box
import Verif.Measure.Model
import Verif.Measure.BoxProps
import Verif.Measure.Props
import Verif.Measure.DiscreteProps
import Verif.ExtData.Model
import Verif.ExtData.Spec
import Verif.ExtData.SetterProps
import Verif.ExtData.AdderProps
import Verif.ExtData.Props
import Verif.ExtXml.Model
import Verif.ExtXml.Lemmas
import Verif.ExtXml.DataProps
import Verif.ExtXml.MeasProps
import Verif.ExtXml.Props
import Verif.ExtNet.Model
import Verif.ExtNet.Lemmas
import Verif.ExtNet.Props
import Verif.ExtNet.NetProps
import Verif.ExtNet.LibProps
import Verif.Slack.Model
import Verif.Slack.Spec
import Verif.Slack.Lemmas
import Verif.Slack.Effects
import Verif.Slack.Steps
import Verif.Slack.Props
import Verif.BusEquip.Model
import Verif.BusEquip.Spec
import Verif.BusEquip.Lemmas
import Verif.BusEquip.Props
import Verif.Graph.Probe
import Verif.BusState.Model
import Verif.BusState.Spec
import Verif.BusState.Lemmas
import Verif.BusState.Props
import Verif.RegTerm.Model
import Verif.RegTerm.Spec
import Verif.RegTerm.Lemmas
import Verif.RegTerm.Props
import Verif.LimitSet.Model
import Verif.LimitSet.Spec
import Verif.LimitSet.Lemmas
import Verif.LimitSet.Props
import Verif.XmlOld.Base
import Verif.XmlOld.Model
import Verif.XmlOld.Spec
import Verif.XmlOld.Lemmas
import Verif.XmlOld.InjectionsProps
import Verif.XmlOld.BranchesProps
import Verif.XmlOld.TransformersProps
import Verif.XmlOld.NetModel
import Verif.XmlOld.NetSpec
import Verif.XmlOld.RestProps
import Verif.XmlOld.LevelsProps
import Verif.XmlOld.NetProps
import Verif.Coarse.Model
import Verif.Coarse.Spec
import Verif.Coarse.Lemmas
import Verif.Coarse.ReadProps
import Verif.Coarse.OkProps
import Verif.Coarse.AcceptLemmas
import Verif.Coarse.ImportProps
import Verif.Coarse.Examples
import Verif.Coarse.MergedProps
import Verif.CompBuses.Model
import Verif.CompBuses.Spec
import Verif.CompBuses.Lemmas
import Verif.CompBuses.LevelLemmas
import Verif.CompBuses.Ready
import Verif.CompBuses.TellLemmas
import Verif.CompBuses.Props
import Verif.Electric.Model
import Verif.Electric.Spec
import Verif.Electric.Lemmas
import Verif.Electric.LinkLemmas
import Verif.Electric.RunLemmas
import Verif.Electric.Props
import Verif.BusRefs.Model
import Verif.BusRefs.Spec
import Verif.BusRefs.Lemmas
import Verif.BusRefs.Props
import Verif.Fields.Model
import Verif.Fields.Spec
import Verif.Fields.Lemmas
import Verif.Fields.Net
import Verif.Fields.Inventory
import Verif.Fields.Props
import Verif.Setters.Model
import Verif.Setters.Spec
import Verif.Setters.PutSpec
import Verif.Setters.Lemmas
import Verif.Setters.InjectionsProps
import Verif.Setters.TapsProps
import Verif.Setters.NetProps
import Verif.Setters.WrittenProps
import Verif.Setters.ExactProps
import Verif.Setters.Props
import Verif.ReadBack.Spec
import Verif.ReadBack.Lemmas
import Verif.ReadBack.Classes
import Verif.ReadBack.Props
import Verif.ReadBack.QuietSpec
import Verif.ReadBack.QuietLemmas
import Verif.ReadBack.QuietProps
import Verif.ReadBack.Settle
import Verif.ReadBack.SettleSpec
import Verif.ReadBack.SettleLemmas
import Verif.ReadBack.SettleProps
import Verif.ReadBack.HonestSpec
import Verif.ReadBack.HonestLemmas
import Verif.ReadBack.HonestProps
import Verif.Build.Model
import Verif.Build.Spec
import Verif.Build.Lemmas
import Verif.Build.AddedProps
import Verif.Build.StructProps
import Verif.Build.TogetherProps
import Verif.Build.Props
import Verif.Build.Example
import Verif.Build.ExampleProps
import Verif.Remove.Model
import Verif.Remove.Spec
import Verif.Remove.Lemmas
import Verif.Remove.Props
import Verif.Remove.HistoryProps
import Verif.Remove.UndoProps
import Verif.Remove.ExampleProps
import Verif.Remove.AllModel
import Verif.Remove.AllProps
import Verif.Remove.LevelModel
import Verif.Remove.LevelProps
