# Formal model of powsybl-iidm4cpp in Lean 4

This directory holds a hand-written Lean 4 model of the logic of `/repo` (powsybl-iidm4cpp)
and machine-checked theorems about it.  The properties are listed in `properties.jsonl`,
the theorem(s) settling each one in `MANIFEST.json`, the mutation log in `seeded/LOG.jsonl`.

## Trusted base

* Lean's kernel (4.33.0) and the Mathlib modules that are imported one by one.
* Axioms: only `propext`, `Classical.choice`, `Quot.sound` (checked with `#print axioms`
  in `lean/Verif/Axioms.lean` style scratch runs; no `sorry`, no added axiom, no `native_decide`).
* The reading of the C++ code: each definition cites file and lines.  Nothing in `/repo` is executed.
* C++ standard library / boost containers are modelled by their documented behaviour
  (`std::map`, `std::set`, `boost::bimap`, `std::vector`): see the comments of `Verif/Common`.
  `std::sort` with an ambiguous order is modelled as *any* permutation sorted by the key.
* Doubles are modelled as NaN, -inf, a rational number or +inf (`Verif/Common/Dbl.lean`).  Comparisons are
  IEEE-like (every comparison with NaN is false).  Arithmetic is exact: rounding, overflow and signed zeros
  are **not** modelled.
* `unsigned long` is modelled as `Nat`; wrap-around is modelled explicitly only where the code
  relies on it (cited in the definition).
* libxml2 is trusted to hand back the nodes, names and values that were written (strings must be valid XML text; an
  element with nothing inside is an empty element; text of white space is no text node).  `std::to_string` and
  `std::stod` are parameters with the hypothesis that reading inverts writing (true but for subnormal doubles).
* Memory: objects are identified by an abstract handle; object lifetime is modelled only where a property is
  about dangling references.

## Outcomes

`Verif/Common/Out.lean`: an operation ends with `ok a`, `thrown` (a C++ exception, the state reached so far is
kept: the model returns it) or `ub` (undefined behaviour: out-of-bounds access, dereference of `end()`,
null or dangling references).  Theorems that need a precondition to avoid `ub` say so; where the code can reach
`ub` through its public API a theorem exhibits the history.

## What is modelled, and what is not

Each Lean directory and the source files from which its definitions are taken.  Only the functions cited (file and
lines) in the comment of a definition are modelled; of a file listed here the rest is not.

| Lean directory | C++ files |
|---|---|
| `Verif/Adders` | BatteryAdder.cpp, BranchAdder.hxx, BusAdder.cpp, BusBreakerVoltageLevel.cpp, BusTerminal.cpp, BusbarSectionAdder.cpp, ConfiguredBus.cpp, Connectable.cpp, DanglingLineAdder.cpp, GeneratorAdder.cpp, IdentifiableAdder.hxx, LccConverterStationAdder.cpp, LineAdder.cpp, LoadAdder.cpp, NetworkIndex.hxx, NodeBreakerVoltageLevel.cpp, ShuntCompensatorAdder.cpp, StaticVarCompensatorAdder.cpp, SubstationAdder.cpp, SwitchAdder.cpp, TerminalBuilder.cpp, TerminalBuilder.hpp, ThreeWindingsTransformerAdder.cpp, ThreeWindingsTransformerLegAdder.cpp, TieLineAdder.cpp, TwoWindingsTransformerAdder.cpp, UndirectedGraph.hxx, VoltageLevelAdder.cpp, VscConverterStationAdder.cpp |
| `Verif/Anonymizer` | SimpleAnonymizer.cpp |
| `Verif/Build` | BatteryAdder.cpp, BranchAdder.hxx, BusAdder.cpp, BusBreakerVoltageLevel.cpp, BusbarSectionAdder.cpp, DanglingLineAdder.cpp, DanglingLineGeneration.cpp, DanglingLineGenerationAdder.cpp, GeneratorAdder.cpp, HalfLine.cpp, HalfLineAdder.cpp, HvdcLineAdder.cpp, Identifiable.cpp, IdentifiableAdder.hpp, IdentifiableAdder.hxx, InternalConnectionAdder.cpp, LccConverterStationAdder.cpp, LineAdder.cpp, LoadAdder.cpp, Network.cpp, NetworkIndex.hxx, NodeBreakerVoltageLevel.cpp, NodeBreakerVoltageLevelViews.cpp, ShuntCompensatorAdder.cpp, ShuntCompensatorLinearModelAdder.cpp, ShuntCompensatorNonLinearModelAdder.cpp, StaticVarCompensatorAdder.cpp, SubstationAdder.cpp, SwitchAdder.cpp, Terminal.cpp, ThreeWindingsTransformerAdder.cpp, ThreeWindingsTransformerLegAdder.cpp, TieLineAdder.cpp, TopologyKind.hpp, TwoWindingsTransformerAdder.cpp, ValidationUtils.cpp, VoltageLevelAdder.cpp, VscConverterStationAdder.cpp |
| `Verif/BusBreaker` | BusBreakerVoltageLevel.cpp, BusBreakerVoltageLevelBusCache.cpp, BusBreakerVoltageLevelBusCache.hpp, BusBreakerVoltageLevelTopology.cpp, BusBreakerVoltageLevelVariant.cpp, BusTerminal.cpp, BusTerminalViews.cpp, ConfiguredBus.cpp, Switch.cpp, UndirectedGraph.hxx |
| `Verif/BusEquip` | AbstractTerminalTopologyVisitor.cpp, Battery.cpp, Branch.cpp, Bus.cpp, BusBreakerVoltageLevel.cpp, BusbarSection.cpp, CalculatedBus.cpp, ConfiguredBus.cpp, Connectable.cpp, ConnectableType.hpp, DanglingLine.cpp, Generator.cpp, HvdcConverterStation.cpp, Injection.cpp, LccConverterStation.hpp, Line.cpp, LineAdder.cpp, Load.cpp, MergedBus.cpp, ShuntCompensator.cpp, StaticVarCompensator.cpp, Terminal.cpp, Terminal.hxx, ThreeWindingsTransformer.cpp, ThreeWindingsTransformerAdder.cpp, ThreeWindingsTransformerLeg.cpp, TieLine.hpp, TieLineAdder.cpp, TopologyVisitor.cpp, TopologyVisitor.hpp, TwoWindingsTransformer.cpp, TwoWindingsTransformerAdder.cpp, VscConverterStation.hpp |
| `Verif/BusRefs` | Branch.cpp, BusRef.cpp, BusTerminalViews.cpp, IdBasedBusRef.cpp, NodeTerminalViews.cpp, ThreeWindingsTransformer.cpp |
| `Verif/BusState` | CalculatedBus.cpp, CalculatedBus.hpp, ConfiguredBus.cpp, MergedBus.cpp, MergedBus.hpp, NodeBreakerVoltageLevel.cpp, NodeBreakerVoltageLevelViews.cpp, NodeTerminal.cpp, ValidationUtils.cpp |
| `Verif/Coarse` | AbstractConnectableXml.hxx, AbstractSwitchXml.hxx, BusBreakerViewSwitchXml.cpp, BusFilter.cpp, BusTerminalViews.cpp, NodeBreakerVoltageLevelTopology.cpp, TerminalRefXml.cpp, TopologyLevel.cpp, VoltageLevelXml.cpp |
| `Verif/CompBuses` | AbstractComponentsManager.cpp, Bus.cpp, BusBreakerVoltageLevel.cpp, BusBreakerVoltageLevelTopology.cpp, BusBreakerVoltageLevelViews.cpp, CalculatedBus.cpp, Component.cpp, ComponentConstants.hpp, ConfiguredBus.cpp, ConfiguredBus.hpp, ConnectedComponent.cpp, ConnectedComponents.cpp, MergedBus.cpp, NetworkViews.cpp, NodeBreakerVoltageLevel.cpp, NodeBreakerVoltageLevelTopology.cpp, NodeBreakerVoltageLevelViews.cpp, NodeTerminal.cpp, NodeTerminal.hpp, SynchronousComponent.cpp |
| `Verif/Components` | GraphUtil.cpp, GraphUtil.hpp |
| `Verif/Convert` | ConversionParameters.cpp, ExportOptions.cpp, ImportOptions.cpp, Parameter.cpp, Parameter.hpp |
| `Verif/Curve` | MinMaxReactiveLimitsAdder.cpp, ReactiveCapabilityCurve.cpp, ReactiveCapabilityCurveAdder.cpp |
| `Verif/Electric` | AbstractComponentsManager.cpp, BusBreakerVoltageLevelTopology.cpp, BusTerminalViews.cpp, ConnectedComponentsManager.cpp, NodeTerminalViews.cpp |
| `Verif/Enums` | Branch.cpp, Branch.hpp, BranchStatus.cpp, BranchStatus.hpp, ConnectablePosition.cpp, ConnectablePosition.hpp, ConnectableType.cpp, ConnectableType.hpp, Country.cpp, Country.hpp, DiscreteMeasurement.cpp, DiscreteMeasurement.hpp, EnergySource.cpp, EnergySource.hpp, EntsoeGeographicalCode.cpp, EntsoeGeographicalCode.hpp, Enum.hxx, ExportOptions.cpp, ExportOptions.hpp, HvdcConverterStation.cpp, HvdcConverterStation.hpp, HvdcLine.cpp, HvdcLine.hpp, LimitType.cpp, LimitType.hpp, LoadType.cpp, LoadType.hpp, Measurement.cpp, Measurement.hpp, PhaseTapChanger.cpp, PhaseTapChanger.hpp, ShuntCompensatorModelType.cpp, ShuntCompensatorModelType.hpp, StaticVarCompensator.cpp, StaticVarCompensator.hpp, SwitchKind.cpp, SwitchKind.hpp, ThreeWindingsTransformer.cpp, ThreeWindingsTransformer.hpp, TopologyKind.cpp, TopologyKind.hpp, TopologyLevel.cpp, TopologyLevel.hpp |
| `Verif/ExtData` | ActivePowerControl.cpp, ActivePowerControlAdder.cpp, ActivePowerControlAdder.hpp, Battery.hpp, Branch.hpp, BranchStatus.cpp, BranchStatusAdder.cpp, BranchStatusAdder.hpp, Bus.hpp, BusbarSection.hpp, BusbarSectionPosition.cpp, BusbarSectionPositionAdder.cpp, BusbarSectionPositionAdder.hpp, Connectable.hpp, ConnectablePosition.cpp, ConnectablePositionAdder.cpp, ConnectablePositionAdder.hpp, Container.hpp, CoordinatedReactiveControl.cpp, CoordinatedReactiveControlAdder.cpp, CoordinatedReactiveControlAdder.hpp, DanglingLine.hpp, EntsoeArea.cpp, EntsoeAreaAdder.cpp, EntsoeAreaAdder.hpp, Extension.cpp, ExtensionAdder.cpp, Generator.hpp, HvdcAngleDroopActivePowerControl.cpp, HvdcAngleDroopActivePowerControlAdder.cpp, HvdcAngleDroopActivePowerControlAdder.hpp, HvdcConverterStation.hpp, HvdcLine.hpp, HvdcOperatorActivePowerRange.cpp, HvdcOperatorActivePowerRangeAdder.cpp, HvdcOperatorActivePowerRangeAdder.hpp, Injection.hpp, LccConverterStation.hpp, Line.hpp, Load.hpp, LoadDetail.cpp, LoadDetailAdder.cpp, LoadDetailAdder.hpp, MergedXnode.cpp, MergedXnodeAdder.cpp, MergedXnodeAdder.hpp, Network.hpp, RemoteReactivePowerControl.cpp, RemoteReactivePowerControlAdder.cpp, RemoteReactivePowerControlAdder.hpp, ShuntCompensator.hpp, SlackTerminal.cpp, SlackTerminalAdder.cpp, SlackTerminalAdder.hpp, StaticVarCompensator.hpp, Substation.hpp, Switch.hpp, ThreeWindingsTransformer.hpp, ThreeWindingsTransformerPhaseAngleClock.cpp, ThreeWindingsTransformerPhaseAngleClockAdder.cpp, ThreeWindingsTransformerPhaseAngleClockAdder.hpp, TieLine.hpp, TwoWindingsTransformer.hpp, TwoWindingsTransformerPhaseAngleClock.cpp, TwoWindingsTransformerPhaseAngleClockAdder.cpp, TwoWindingsTransformerPhaseAngleClockAdder.hpp, ValidationUtils.cpp, VoltageLevel.hpp, VoltagePerReactivePowerControl.cpp, VoltagePerReactivePowerControlAdder.cpp, VoltagePerReactivePowerControlAdder.hpp, VscConverterStation.hpp, Xnode.cpp, XnodeAdder.cpp, XnodeAdder.hpp |
| `Verif/ExtNet` | AbstractExtensionXmlSerializer.cpp, AbstractVersionableExtensionXmlSerializer.cpp, DiscreteMeasurementsXmlSerializer.cpp, ExportOptions.cpp, ExtensionProviders.cpp, ExtensionXmlSerializer.cpp, ImportOptions.cpp, MeasurementsXmlSerializer.cpp, NetworkXml.cpp, SlackTerminalXmlSerializer.cpp |
| `Verif/ExtXml` | ActivePowerControl.cpp, ActivePowerControlXmlSerializer.cpp, BranchStatusXmlSerializer.cpp, BusbarSectionPositionXmlSerializer.cpp, ConnectablePositionXmlSerializer.cpp, CoordinatedReactiveControlXmlSerializer.cpp, DiscreteMeasurementsXmlSerializer.cpp, EntsoeAreaXmlSerializer.cpp, HvdcAngleDroopActivePowerControlXmlSerializer.cpp, HvdcOperatorActivePowerRangeXmlSerializer.cpp, LoadDetailXmlSerializer.cpp, MeasurementsXmlSerializer.cpp, MergedXnodeXmlSerializer.cpp, SlackTerminalXmlSerializer.cpp, TerminalRefXml.cpp, ThreeWindingsTransformerPhaseAngleClockXmlSerializer.cpp, TwoWindingsTransformerPhaseAngleClockXmlSerializer.cpp, VoltagePerReactivePowerControlXmlSerializer.cpp, XmlStreamReader.cpp, XnodeXmlSerializer.cpp |
| `Verif/Extend` | Extendable.cpp, Extendable.hxx, Extension.cpp |
| `Verif/Fields` | Battery.cpp, Battery.hpp, BusBreakerVoltageLevel.cpp, BusBreakerVoltageLevelVariant.cpp, BusTerminal.cpp, BusTerminal.hpp, ConfiguredBus.cpp, ConfiguredBus.hpp, Connectable.cpp, Connectable.hpp, DanglingLine.cpp, DanglingLine.hpp, DanglingLineGeneration.cpp, DanglingLineGeneration.hpp, Generator.cpp, Generator.hpp, HvdcLine.cpp, HvdcLine.hpp, Identifiable.cpp, Identifiable.hpp, Load.cpp, Load.hpp, LoadDetail.cpp, LoadDetail.hpp, MultiVariantObject.hpp, Network.cpp, NetworkVariant.cpp, NodeBreakerVoltageLevel.cpp, NodeBreakerVoltageLevelVariant.cpp, NodeTerminal.cpp, NodeTerminal.hpp, PhaseTapChanger.cpp, PhaseTapChanger.hpp, RatioTapChanger.cpp, RatioTapChanger.hpp, ShuntCompensator.cpp, ShuntCompensator.hpp, SlackTerminal.cpp, StaticVarCompensator.cpp, StaticVarCompensator.hpp, Switch.cpp, Switch.hpp, TapChanger.hpp, TapChanger.hxx, Terminal.cpp, Terminal.hpp, ThreeWindingsTransformer.cpp, ThreeWindingsTransformer.hpp, TwoWindingsTransformer.cpp, TwoWindingsTransformer.hpp, VariantArray.hxx, VariantManager.cpp, VscConverterStation.cpp, VscConverterStation.hpp |
| `Verif/Finder` | BusbarSection.hpp, HvdcConverterStation.hpp, TerminalFinder.cpp |
| `Verif/Flow` | Boundary.cpp, BusTerminal.cpp, DanglingLineBoundary.cpp, HalfLineBoundary.cpp, LineCharacteristics.cpp, LinkData.cpp, LinkData.hpp, SV.cpp, Terminal.cpp, TieLine.cpp |
| `Verif/Graph` | UndirectedGraph.hpp, UndirectedGraph.hxx |
| `Verif/Hvdc` | HvdcConverterStation.cpp, HvdcLine.cpp, HvdcLineAdder.cpp, Network.cpp |
| `Verif/Index` | Identifiable.cpp, Identifiable.hpp, IdentifiableAdder.hxx, Network.cpp, NetworkIndex.cpp, NetworkIndex.hpp, NetworkIndex.hxx |
| `Verif/LimitSet` | ActivePowerLimits.cpp, ActivePowerLimitsAdder.cpp, ApparentPowerLimits.cpp, ApparentPowerLimitsAdder.cpp, Branch.cpp, Branch.hpp, CurrentLimits.cpp, CurrentLimitsAdder.cpp, FlowsLimitsHolder.cpp, FlowsLimitsHolder.hpp, LimitType.hpp, LimitViolationUtils.cpp, LoadingLimits.cpp, OperationalLimits.cpp, OperationalLimitsHolder.cpp, OperationalLimitsHolder.hpp, OperationalLimitsHolder.hxx, ThreeWindingsTransformerLeg.cpp, ThreeWindingsTransformerLeg.hpp |
| `Verif/Limits` | Branch.cpp, CurrentLimitsAdder.cpp, LimitViolationUtils.cpp, LoadingLimits.cpp, LoadingLimits.hpp, LoadingLimitsAdder.hxx, ValidationUtils.cpp |
| `Verif/Listing` | DistinctPredicate.cpp, Substation.cpp, VoltageLevel.hxx |
| `Verif/Measure` | DiscreteMeasurement.cpp, DiscreteMeasurement.hpp, DiscreteMeasurementAdder.cpp, DiscreteMeasurementAdder.hpp, DiscreteMeasurementValidationUtil.cpp, DiscreteMeasurements.cpp, Extension.hxx, Measurement.cpp, Measurement.hpp, MeasurementAdder.cpp, MeasurementAdder.hpp, MeasurementValidationUtil.cpp, Measurements.cpp |
| `Verif/Move` | Network.cpp, NetworkIndex.cpp, VariantArray.hxx, VariantManager.cpp |
| `Verif/NetBuses` | BusBreakerVoltageLevel.cpp, BusBreakerVoltageLevelTopology.cpp, BusBreakerVoltageLevelViews.cpp, BusCache.cpp, NetworkIndex.hxx, NetworkVariant.cpp, NetworkVariant.hpp, NetworkViews.cpp, NodeBreakerVoltageLevel.cpp, NodeBreakerVoltageLevelTopology.cpp, NodeBreakerVoltageLevelVariant.cpp, NodeBreakerVoltageLevelViews.cpp, Switch.cpp, VoltageLevel.cpp, VoltageLevelAdder.cpp |
| `Verif/NetComponents` | AbstractComponentsManager.cpp, BusBreakerVoltageLevel.cpp, CalculatedBus.cpp, ConfiguredBus.cpp, ConnectedComponentsManager.cpp, GraphUtil.cpp, HvdcLine.cpp, HvdcLineAdder.cpp, MergedBus.cpp, NodeBreakerVoltageLevel.cpp, SynchronousComponentsManager.cpp |
| `Verif/NodeBreaker` | CalculatedBus.cpp, ConnectableType.hpp, Networks.cpp, NodeBreakerVoltageLevel.cpp, NodeBreakerVoltageLevelBusCache.cpp, NodeBreakerVoltageLevelBusCache.hpp, NodeBreakerVoltageLevelBusNamingStrategy.cpp, NodeBreakerVoltageLevelGraph.hpp, NodeBreakerVoltageLevelTopology.cpp, NodeBreakerVoltageLevelVariant.cpp, NodeBreakerVoltageLevelViews.cpp, NodeTerminalViews.cpp, Switch.cpp, SwitchKind.hpp, UndirectedGraph.hxx |
| `Verif/PropMap` | Identifiable.cpp, Properties.cpp |
| `Verif/ReadBack` | AbstractConnectableXml.hxx, BranchAdder.hxx, Generator.cpp, GeneratorXml.cpp, HvdcLineAdder.cpp, HvdcLineXml.cpp, NetworkIndex.cpp, ShuntCompensator.cpp, ShuntCompensatorXml.cpp, StaticVarCompensator.cpp, StaticVarCompensatorXml.cpp, TerminalRefXml.cpp, ThreeWindingsTransformerLegAdder.cpp |
| `Verif/RegTerm` | AbstractTransformerXml.hxx, Connectable.cpp, Connectable.hpp, Extendable.hxx, Generator.cpp, Generator.hpp, GeneratorAdder.cpp, GeneratorXml.cpp, Network.cpp, PhaseTapChanger.cpp, PhaseTapChangerAdder.cpp, RatioTapChanger.cpp, RatioTapChangerAdder.cpp, RemoteReactivePowerControl.hpp, RemoteReactivePowerControlAdder.cpp, ShuntCompensator.cpp, ShuntCompensator.hpp, ShuntCompensatorAdder.cpp, ShuntCompensatorXml.cpp, StaticVarCompensator.cpp, StaticVarCompensator.hpp, StaticVarCompensatorAdder.cpp, StaticVarCompensatorXml.cpp, TapChanger.hpp, TapChanger.hxx, TerminalRefXml.cpp, ValidationUtils.cpp |
| `Verif/Removal` | BusBreakerVoltageLevel.cpp, ConfiguredBus.cpp, Connectable.cpp, Network.cpp, NetworkIndex.cpp, NodeBreakerVoltageLevel.cpp, Substation.cpp, Substations.cpp, UndirectedGraph.hxx, VoltageLevel.cpp, VoltageLevels.cpp, VoltageLevels.hpp |
| `Verif/Remove` | BusBreakerVoltageLevel.cpp, BusBreakerVoltageLevelViews.cpp, Connectable.cpp, HvdcConverterStation.cpp, HvdcLine.cpp, NetworkIndex.cpp, NodeBreakerVoltageLevel.cpp, VoltageLevel.cpp, VoltageLevels.cpp |
| `Verif/Setpoint` | Battery.cpp, BatteryAdder.cpp, DanglingLineGeneration.cpp, DanglingLineGenerationAdder.cpp, Generator.cpp, GeneratorAdder.cpp, StaticVarCompensator.cpp, StaticVarCompensatorAdder.cpp, ValidationUtils.cpp, VoltageLevel.cpp, VoltageLevelAdder.cpp, VscConverterStation.cpp, VscConverterStationAdder.cpp |
| `Verif/Setters` | Battery.cpp, BusTerminalViews.cpp, ConfiguredBus.cpp, DanglingLine.cpp, DanglingLineGeneration.cpp, Generator.cpp, HalfLine.cpp, HvdcConverterStation.cpp, HvdcLine.cpp, Identifiable.cpp, LccConverterStation.cpp, Line.cpp, LineCharacteristics.cpp, Load.cpp, LoadingLimits.cpp, Network.cpp, NodeTerminalViews.cpp, PhaseTapChanger.cpp, PhaseTapChangerAdder.cpp, PhaseTapChangerStep.cpp, RatioTapChanger.cpp, RatioTapChangerAdder.cpp, ShuntCompensator.cpp, ShuntCompensatorLinearModel.cpp, ShuntCompensatorNonLinearModel.cpp, StaticVarCompensator.cpp, Substation.cpp, Switch.cpp, TapChanger.hxx, TapChangerStep.hxx, Terminal.cpp, ThreeWindingsTransformerLeg.cpp, TieLine.cpp, TwoWindingsTransformer.cpp, ValidationUtils.cpp, VoltageLevel.cpp, VscConverterStation.cpp |
| `Verif/Shunt` | ShuntCompensator.cpp, ShuntCompensatorAdder.cpp, ShuntCompensatorLinearModel.cpp, ShuntCompensatorLinearModelAdder.cpp, ShuntCompensatorNonLinearModel.cpp, ShuntCompensatorNonLinearModelAdder.cpp, ValidationUtils.cpp |
| `Verif/Slack` | Extendable.cpp, Extendable.hxx, ExtensionAdder.cpp, Identifiable.cpp, MultipleVariantContext.cpp, SlackTerminal.cpp, SlackTerminal.hpp, SlackTerminalAdder.cpp, TerminalFinder.cpp, VariantManager.cpp |
| `Verif/Tap` | PhaseTapChanger.cpp, PhaseTapChanger.hpp, PhaseTapChangerAdder.cpp, PhaseTapChangerAdder.hpp, RatioTapChanger.cpp, RatioTapChangerAdder.cpp, RatioTapChangerAdder.hpp, TapChanger.hpp, TapChanger.hxx, ThreeWindingsTransformerLeg.cpp, TwoWindingsTransformer.cpp, ValidationUtils.cpp |
| `Verif/Traverse` | BusBreakerVoltageLevel.cpp, BusTerminal.cpp, NodeBreakerVoltageLevel.cpp, NodeTerminal.cpp, VoltageLevel.cpp, VoltageLevelTopologyTraverser.hpp |
| `Verif/UniqueId` | Identifiables.cpp |
| `Verif/Variants` | BusTerminal.cpp, ConfiguredBus.cpp, MultipleVariantContext.cpp, SlackTerminal.cpp, TapChanger.hxx, Terminal.cpp, ThreadLocalMultipleVariantContext.cpp, VariantArray.hxx, VariantContextGuard.cpp, VariantManager.cpp, VariantManager.hpp |
| `Verif/Xml` | AbstractConnectableXml.hxx, AbstractIdentifiableXml.hxx, AbstractSwitchXml.hxx, AbstractTransformerXml.hxx, AliasesXml.cpp, Branch.cpp, BusBreakerViewSwitchXml.cpp, GeneratorXml.cpp, IidmXmlUtil.cpp, IidmXmlVersion.cpp, NetworkXml.cpp, NodeBreakerViewInternalConnectionXml.cpp, NodeBreakerViewSwitchXml.cpp, PropertiesXml.cpp, ReactiveLimitsXml.cpp, ShuntCompensatorAdder.hpp, ShuntCompensatorXml.cpp, StaticVarCompensatorXml.cpp, SwitchAdder.cpp, TerminalRefXml.cpp, ThreeWindingsTransformer.cpp, XmlStreamReader.cpp, XmlStreamWriter.cpp |
| `Verif/XmlNet` | AbstractConnectableXml.hxx, AbstractIdentifiableXml.hxx, AbstractSwitchXml.hxx, AbstractTransformerXml.hxx, AliasesXml.cpp, BatteryAdder.cpp, BatteryXml.cpp, BranchAdder.hxx, BusBreakerViewSwitchXml.cpp, BusBreakerVoltageLevel.cpp, BusFilter.cpp, BusTerminalViews.cpp, BusXml.cpp, BusbarSectionAdder.cpp, BusbarSectionXml.cpp, ConfiguredBus.cpp, DanglingLineAdder.cpp, DanglingLineGeneration.cpp, DanglingLineGenerationAdder.cpp, DanglingLineXml.cpp, GeneratorAdder.cpp, GeneratorXml.cpp, HalfLine.cpp, HalfLineAdder.cpp, HvdcLineAdder.cpp, HvdcLineXml.cpp, Identifiable.cpp, IdentifiableAdder.hxx, LccConverterStationAdder.cpp, LccConverterStationXml.cpp, LineAdder.cpp, LineXml.cpp, LoadAdder.cpp, LoadXml.cpp, Network.cpp, NetworkIndex.cpp, NetworkIndex.hxx, NetworkXml.cpp, Networks.cpp, NodeBreakerViewInternalConnectionXml.cpp, NodeBreakerViewSwitchXml.cpp, NodeBreakerVoltageLevel.cpp, NodeBreakerVoltageLevelViews.cpp, PhaseTapChangerAdder.cpp, PropertiesXml.cpp, RatioTapChangerAdder.cpp, ShuntCompensatorAdder.cpp, ShuntCompensatorXml.cpp, SimpleAnonymizer.cpp, StaticVarCompensatorAdder.cpp, StaticVarCompensatorXml.cpp, SubstationAdder.cpp, SubstationXml.cpp, Switch.cpp, SwitchAdder.cpp, Terminal.cpp, TerminalBuilder.cpp, TerminalRefXml.cpp, ThreeWindingsTransformerAdder.cpp, ThreeWindingsTransformerLeg.cpp, ThreeWindingsTransformerLegAdder.cpp, ThreeWindingsTransformerXml.cpp, TieLineAdder.cpp, TieLineXml.cpp, TwoWindingsTransformerAdder.cpp, TwoWindingsTransformerXml.cpp, ValidationUtils.cpp, VoltageLevelAdder.cpp, VoltageLevelXml.cpp, VscConverterStationAdder.cpp, VscConverterStationXml.cpp, XmlStreamReader.cpp, XmlStreamWriter.cpp |
| `Verif/XmlOld` | AbstractIdentifiableXml.hxx, AbstractSwitchXml.hxx, AbstractTransformerXml.hxx, AliasesXml.cpp, BatteryXml.cpp, BusBreakerViewSwitchXml.cpp, BusXml.cpp, BusbarSectionXml.cpp, DanglingLineAdder.cpp, DanglingLineXml.cpp, GeneratorXml.cpp, HvdcLineXml.cpp, IidmXmlUtil.cpp, LccConverterStationXml.cpp, LineXml.cpp, LoadXml.cpp, NetworkXml.cpp, NodeBreakerViewSwitchXml.cpp, PropertiesXml.cpp, ShuntCompensatorXml.cpp, StaticVarCompensatorAdder.cpp, StaticVarCompensatorXml.cpp, SubstationXml.cpp, ThreeWindingsTransformerAdder.cpp, ThreeWindingsTransformerXml.cpp, TieLineAdder.cpp, TieLineXml.cpp, TwoWindingsTransformerXml.cpp, VoltageLevelXml.cpp, VscConverterStationXml.cpp |

**Not modelled** (no theorem speaks about them): logging, message formatting, tests, examples, tools, the threads
themselves (only the interleaving of whole calls), and these files:

* `extensions/entsoe/src`: Entsoe.cpp
* `extensions/iidm/src`: DiscreteMeasurementsAdder.cpp, Iidm.cpp, MeasurementsAdder.cpp
* `extensions/sld/src`: Sld.cpp
* `include/powsybl/iidm`: HvdcConverterStationAdder.hxx, InjectionAdder.hxx, Network.hxx, ReactiveLimitsHolder.hxx, ShuntCompensator.hxx, SwitchAdder.hxx, Variant.hxx
* `include/powsybl/iidm/converter/xml`: ExtensionXmlSerializer.hxx
* `include/powsybl/logging`: Logger.hxx, LoggerFactory.hxx
* `include/powsybl/stdcxx`: format.hxx
* `src`: AssertionError.cpp, PowsyblException.cpp
* `src/iidm`: AbstractMultiVariantIdentifiableExtension.cpp, Container.cpp, ExtensionProvider.cpp, InternalConnection.cpp, MinMaxReactiveLimits.cpp, NetworkRef.cpp, PhaseTapChangerHolder.cpp, RatioTapChangerHolder.cpp, RatioTapChangerStep.cpp, ReactiveLimitsHolder.cpp, ValidationException.cpp
* `src/iidm/converter`: Constants.cpp, FakeAnonymizer.cpp
* `src/iidm/converter/xml`: NetworkXmlReaderContext.cpp, NetworkXmlWriterContext.cpp, VersionsCompatibility.cpp
* `src/logging`: ConsoleLogger.cpp, ContainerLogger.cpp, Level.cpp, LogMessage.cpp, LoggerFactory.cpp, NoopLogger.cpp
* `src/math`: ConnectedComponentsComputationResult.cpp
* `src/network`: BatteryNetworkFactory.cpp, EurostagFactory.cpp, FictitiousSwitchFactory.cpp, FourSubstationsNodeBreakerFactory.cpp, LoadBarExt.cpp, LoadFooExt.cpp, MultipleExtensionsTestNetworkFactory.cpp, ThreeWindingsTransformerNetworkFactory.cpp
* `src/stdcxx`: DateTime.cpp, demangle.cpp, exception.cpp, time.cpp
* `src/xml`: XmlCharConversion.cpp, XmlStreamException.cpp

## Properties and how each one is treated

(status of each property is in MANIFEST.json; "FALSE" means the code violates the full statement: the
violation is proved on a concrete witness and a guarded `_partial` theorem states what does hold)

| id | model | proof |
|----|-------|-------|
| C01 C02 C04 | id/alias/type tables + adders' uniqueness check as a state machine | refinement of a name table, induction over histories |
| C03 | `getUniqueId` with an arbitrary finite "in use" predicate | freshness by pigeonhole, minimal suffix |
| C05-C09 | variant manager + any number of multi-variant arrays as a state machine | invariant + refinement to `variant id -> value`; C09 FALSE (partial inserts before the exception) |
| C10 | thread-local index, interleaved steps of any number of threads | refinement per thread; shared by networks: FALSE across networks |
| C11 | forEachVariant with an arbitrary (possibly throwing) body | direct |
| C12-C14 | graph store (vertices, edges, free lists, adjacency cache) as a state machine | invariant over histories; C14 second part FALSE |
| C15 C16 | recursive traversal and path search, fuel = number of vertices | reachability / simple path characterisation |
| C17 | component computation | equivalence with connectivity, `std::sort` as arbitrary sorted permutation |
| C18 C19 C53 | node/breaker bus computation on top of C15 | partition theorem |
| C20 C24 | caches per variant with the invalidation calls actually made | coherence for the operations that invalidate; FALSE for the ones that do not |
| C21 C22 | connect / disconnect on top of C16 | path argument; C22 atomicity FALSE |
| C23 | bus/breaker merged buses, `encountered` sized by vertex count | equals connectivity without holes; with holes: `ub` witness |
| C25 | per-variant terminal lists | invariant; setConnectableBus FALSE with two variants |
| C26 | node occupancy | invariant |
| C27 | removability checks, loop over the connectables of the graph being changed | exact outcome; FALSE for most voltage levels (invalid iterators), exactly characterised |
| C28 | station/line links | FALSE (no check in the adder); partial with distinct free stations |
| C29 | adders as sequences of effects | FALSE for several adders; partial for valid arguments |
| C30 | tap changer over variants | FALSE with setLowTapPosition; partial |
| C31-C33 | regulation setters | FALSE in the documented corners; partial |
| C34 C35 | regulator set-points, ranges | invariant over setter histories |
| C36 C57 | shunt sections, regulation | C36 FALSE with several variants; partial |
| C37 | reactive curve | interpolation theorems over an ordered field |
| C38 C39 | limits adder and overload detection | FALSE for duplicates / beyond the last limit; partial |
| C40 | current formula | FALSE (precedence), proved what is computed |
| C41 C59 | branch two-port equations over the complex numbers (Mathlib reals) | field identities, circuit equations |
| C42 C43 | anonymiser | injectivity of the base-26 naming, file round trip without separators |
| C44-C46 | XML writers and readers on the stream of nodes that libxml2 writes and reads | round trips for every codec of numbers that reads back what it wrote; FALSE in the corners listed below |
| C47 C58 | tables of names | direct, generated from the sources |
| C48 C49 | maps | refinement; C49 FALSE when a name is reused with another type |
| C50 | stateful predicate | first iteration exact; second FALSE |
| C51 C52 C55 | decision logic | direct |
| C54 | component managers on top of C17, histories | right for synchronous components; FALSE for connected ones after a change of HVDC lines; partial |
| C60 | setters of C30-C36 as decision plus assignment (`Multi.Stores`) | exact effect; FALSE without working variant for setLowTapPosition |
| C61 | network bus caches over the caches of the voltage levels, buses at addresses | bus view right; FALSE for the bus/breaker view (wrong cache invalidated) |
| C62 | stateful graph traversal, connectable bus | right while caches are current; FALSE after addSwitch |
| C63 | switch map and edge slots of a node/breaker voltage level | proved |
| C64 | listings and counts over the graph | proved; FALSE for `hasAttachedEquipment` |
| C65 | topological traversal over graphs and equipments, any traverser | proved |
| C66 | the same with answers that depend on the question | exact for node/breaker; FALSE for bus/breaker |
| C67 | XML of each class with one terminal, attributes and sub elements | round trip; empty loading limits are lost |
| C68 | XML of each class with several terminals, tap changers, limits of every side | round trip; nodes of branches above an `int` cannot be read back |
| C69 | Readers of every class of equipment, with the checks of the adders | whatever is read is valid; one exception |
| C70 | Voltage levels and substations in XML, with all that they contain | round trip by composition of lists of elements; end tasks that restore voltages; four losses |
| C71 | The whole document of a network | round trip by composition; injectivity of the export; one loss |
| C72 | Import of a network: names, attachments, stations, references | accepted if and only if consistent; resolved to what is named; no undefined behaviour |
| C73 | Anonymized export of a network: names replaced, imported alone | document of the renamed network, equal exactly for networks equal once renamed; imported without the file of the names |
| C74 C75 | boundaries of half lines and dangling lines, sums of the characteristics of a tie line, over exact complex numbers | the circuit equations; matching boundaries iff the halves are in series; the sum is the series iff no shunt admittance is at the boundary |
| C76 C77 | the vectors of measurements and of discrete measurements of an object, their adders, checks, setters, removal, search and lazily filtered listing; addresses of the elements; the lifetime of the type that a listing captures by reference | a register that refines the vector; which equipment takes which measurement, stated by cases; values read with their type |
| C78 | the sixteen extensions that hold values: members, defaults, adders, constructors, checks, getters and setters, class of the extended object by its chain of base classes, arrays of values per variant | per extension: the classes that may have it, the values it may hold, the values without default; last value given to the adder; a setter writes one value in one variant |
| C79 | `read` and `write` of the seventeen serializers of extensions, callbacks and loops on sub-elements included | the calls that made the extension; which values survive the text; the six cases that are lost or refused |
| C80 | `NetworkXml` for extensions: namespaces, serializers found or not, options, loop on objects, skipped elements; the seventeen serializers put together | `Writable`, `NsUri`, `carried`: what the options ask for, from the objects |
| C81 | `SlackTerminal`: vector per variant, adder, setters, resets, attach, over the variant manager | `Abs`: variants and voltage levels by id, at most one terminal each; `Best` terminal of a bus |
| C82 | `Bus`, `TopologyVisitor`, `AbstractTerminalTopologyVisitor`, three kinds of bus, objects at addresses | `Tells`: which call designates which terminal; `Amounts` of a list of terminals; listings counted per terminal |
| C83 | three kinds of bus, terminals and configured buses holding values per variant, `findTerminal` as a search in the graph of C15 | `Owns`, `Tied`: closed switches link two nodes; search with barred edges (`Graph/Probe`) |
| C84 | equipment alive with its references, calls of the adders, setters, removals, merges and the writer | `asked`, `home`, `Here`: told from the accepted calls alone; a destroyed terminal is undefined to read |
| C85 | the holders of an equipment, one per side, calls of the adders, removals, setters, overload checks | `latest`, `Alive`: told from the accepted calls alone; `flow`: the size of what goes through; replaced or removed limits are undefined to use |
| C86 | writers and readers of busbar sections, SVCs, dangling lines, lines, tie lines, by version and behaviour | `kept…`, `lost…`: what each version has, by cases on the version; `Reports`: logged once each or thrown; `Refused` |
| C87 | writers and readers of tap changers and transformers, by version and behaviour | the same |
| C88 | writers and readers of all classes, of voltage levels, of substations and of the network, by version and behaviour | `keptNet`, `lostNet`, `keptAll`: one clause per version |
| C89 | export at a level of topology: minimum with the level of each voltage level, buses and switches of the views, place of each terminal, references to busbar sections, filter | `netAt`, `Sits`: the network as seen at the level; `ViewsFit`: what the views have in common; `Qualifies`, `Linked` of C23 |
| C90 | component of a bus: numbers stored on terminals and configured buses, reset, update, lookup by calculated, configured and merged buses, main component, buses of a component | `Told`: every bus has the component of the bus of the bus view it is part of; `Right` of C54 for the buses of the bus view; `Comp.era`: when a component was made |
| C91 | buses at the ends of the equipment from the terminals, on top of C90 | `Step`, `Chain`: where the current can go, over nodes, configured buses, switches and equipment; `Energized`: when a place is on a bus; dead-end argument |
| C92 | `IdBasedBusRef`, `BusRef`, terminals by side and voltage level, on the levels of C91 | `SitsOn`: the bus a terminal is on at a level of topology; exact resolution and refusal; a bus without connected terminal: FALSE |
| C93 | the four variant functions of every multi-variant class, array by array, and the loops of the variant manager over the objects | inventory of the values per variant; exact agreement of each class with the attributes of C05-C08; snapshot, isolation and caches for all values of all objects |
| C94 | the setters of every class, with their checks; the adders of limits, reactive limits and tap changers on existing objects | validity of C69/C71 kept by every accepted call exactly when it is safe; refused only when it would be lost; histories; overflow of tap positions |
| C95 | composition of the document writers and readers (C71), the checks of the import (C72) and the setters (C94) | a network that was imported and then edited is exported and imported as what it has become; export after import is stable |
| C96 | the references that the import makes of names and the names that the writers make of references | an imported network refers to objects by identifiers; import, export, import is stable whatever the names in the document |
| C97 | the calls that change aliases, move terminals and set regulating terminals, on an imported network | the objects still go together; export and import give the edited network |
| C98 | the adders of every object of a network, then histories of adders and setters from an empty network | accepted exactly when valid, placed and new; what is built is valid, goes together and comes back from its document; FALSE for unknown enumerators |
| C99 | removals of equipment, HVDC lines, buses (one or all), switches (one or all), internal connections and voltage levels, then histories of adders, setters and removals | accepted exactly when present and unused; exactly that object goes; what is left is valid, goes together and comes back from its document; additions are undone; FALSE for regulated equipment |
| C56 | move constructors | FALSE for aliases, extensions and removed variants |

## Violations found (proved on the model by witness theorems)

| property | witness theorem | code |
|----------|-----------------|------|
| C05 C09 | `Variants.failed_clone_corrupts`, `failed_clone_then_remove_destroys`, `clone_may_be_half_done` | VariantManager.cpp l.98-119: targets are registered one by one, the exception for an existing later target leaves the earlier ones registered without data |
| C05 | `Variants.slack_reduce_broken` | SlackTerminal.cpp l.84-86: `resize(number)` instead of `resize(size() - number)` |
| C07 | `Variants.clone_repeated_target_ub` | VariantManager.cpp l.100-119: a repeated new target goes to the overwritten set with an index past the end |
| C08 | `Variants.other_thread_keeps_removed_variant` | ThreadLocalMultipleVariantContext.cpp l.36-40: only the index of the calling thread is reset |
| C10 | `Variants.foreign_network_moves_selection`, `enabling_multithread_inherits` | ThreadLocalMultipleVariantContext: one static `thread_local` index for all networks |
| C14 | `Graph.removeAllVertices_refused_without_edge` | UndirectedGraph.hxx l.343-370: `removeAllVertices` tests `m_edges.empty()`, but freed inner slots keep the vector non-empty |
| C20 | `NodeBreaker.stale_after_addSwitch`, `query_fails_after_addSwitch`, `stale_after_removeSwitch`, `stale_after_addInternalConnection` | NodeBreakerVoltageLevel.cpp l.40-48, l.372-383 invalidate nothing; internal connections invalidate the caches of the working variant only |
| C21 | `NodeBreaker.connect_stops_at_load_break_switch` | NodeBreakerVoltageLevel.cpp `connect`: an open load break switch is neither avoided by the path search nor closed |
| C22 | `NodeBreaker.disconnect_refused_but_opened` | NodeBreakerVoltageLevel.cpp l.167-188: breakers are opened path by path before it is known that every path has one |
| C26 | `NodeBreaker.detach_assertion_fails` | NodeBreakerVoltageLevel.cpp `detach`: `assert(node < getVertexCount())` compares a node number with the number of nodes |
| C23 | `BusBreaker.merged_buses_undefined`, `merged_buses_ub_iff` | BusBreakerVoltageLevelTopology.cpp l.113: `encountered(getVertexCount())` is too short when the first vertex comes after freed slots |
| C24 | `BusBreaker.stale_after_addSwitch`, `stale_after_removeSwitch` | BusBreakerVoltageLevel.cpp l.44-53, l.314-357: switches are added and removed without invalidating the cached merged buses |
| C25 | `BusBreaker.moved_terminal_lost` | BusTerminalViews.cpp l.45-56: `setConnectableBus` re-attaches in all variants but stores the new bus id in the working variant only |
| (C14) | `BusBreaker.removeAllBuses_dangles` | BusBreakerVoltageLevel.cpp l.296-312: buses are destroyed before `removeAllVertices` throws |
| C30 | `Tap.setLowTapPosition_breaks_other_variant`, `setLowTapPosition_changes_other_step` | TapChanger.hxx l.167-173: the lowest tap is shared by all variants, the position is shifted in the working variant only |
| C31 | `Tap.rtc_capability_unchecked`, `rtc_terminal_removed_in_other_variant` | RatioTapChanger.cpp l.58-62 (no check), l.69-72 (checks the working variant only) |
| C32 | `Tap.ptc_setRegulating_unchecked`, `ptc_mode_changed_in_other_variant` | PhaseTapChanger.hpp does not override `setRegulating`; PhaseTapChanger.cpp l.60-64 checks the working variant only |
| C33 | `Tap.two_regulating_by_setter`, `two_regulating_by_adder` | TapChanger.hxx `setRegulating` and the adders: the others are looked at before or not at all, in the working variant only |
| C34 | `Setpoint.svc_nonpositive_voltage` | ValidationUtils.cpp l.362-366: only NaN is refused |
| C35 | `Setpoint.generation_range_inverted` | DanglingLineGeneration.cpp l.26-27: an unset bound becomes the largest finite value after the check |
| C36 | `Shunt.setMaximumSectionCount_breaks_other_variant` | ShuntCompensatorLinearModel.cpp l.75-79: only the count of the working variant is compared with the new maximum |
| C36 | `Shunt.zero_section_infinite` | ValidationUtils.cpp l.84-89: an infinite susceptance per section is accepted |
| (C36) | `Shunt.section_setters_always_throw` | ShuntCompensatorNonLinearModel.cpp l.57-63: sections are never attached, so their setters throw for every value |
| C37 | `Curve.infinite_point_nan` | ReactiveCapabilityCurveAdder.cpp l.25-33: infinite bounds are accepted; interpolating between them gives NaN |
| C38 | `Limits.duplicate_duration_dropped` | LoadingLimitsAdder.hxx l.99-103: `emplace` keeps the first limit of a duration, without error |
| C39 | `Limits.beyond_last_limit_unreported` | LimitViolationUtils.cpp l.34-41: nothing is reported at or above the last temporary limit |
| (C39) | `Limits.overload_below_permanent` | LoadingLimitsAdder.hxx l.120-131: limits that are not ascending are only logged; an overload is then reported below the permanent limit |
| C43 | `Anonymizer.semicolon_breaks_file`, `Anonymizer.newline_breaks_file` | SimpleAnonymizer.cpp l.75-94: separators inside strings are not escaped |
| (C42) | `Anonymizer.foreign_mapping_collides` | SimpleAnonymizer.cpp l.34-38: after reading a mapping with other names the next name may be in use; the refused insertion is ignored |
| C58 | `Enums.hvdc_type_names_swapped` | HvdcConverterStation.cpp l.53-59: names LCC, VSC for the enumerators VSC, LCC |
| C49 | `Extend.shared_name_dangles` | Extendable.cpp l.35: the entry of the *new* type is erased, the entry of the replaced extension's type dangles |
| C49 | `Extend.shared_type_disagrees` | Extendable.cpp l.42: `emplace` keeps the first extension of a type |
| (C49) | `Extend.refused_addition_loses` | Extendable.cpp l.33-38: the existing extension is destroyed before the new one is checked |
| C56 | `Extend.move_with_extension_terminates` | Extendable.cpp l.20-27: `setExtendable` throws in a `noexcept` constructor |
| C50 | `Listing.second_iteration_loses` | DistinctPredicate.cpp l.17-29: the ids seen are shared by all iterations over a range |
| C52 | `Convert.empty_value_selects_nothing` | ConversionParameters.cpp l.46: splitting the empty string gives one empty name |
| C52 | `Convert.no_extension_reported` | ExportOptions.cpp l.117-119 |
| C40 | `Flow.getI_wrong` | Terminal.cpp l.70: `hypot(P, Q) / sqrt(3) * V / 1000` multiplies by V instead of dividing |
| C40 | `Flow.getI_disconnected` | BusTerminal.cpp l.86-90 and Terminal.cpp l.70: NaN instead of 0 |
| C28 | `Hvdc.in_use_but_free`, `Hvdc.in_use_removed` | HvdcLineAdder.cpp l.43-51: nothing checks that a station is not in use; HvdcLine.cpp l.127 frees a station another line still uses |
| C29 | `Adders.occupied_node_leaves`, `Adders.unknown_bus_leaves`, `Adders.no_terminal_leaves` | LoadAdder.cpp l.30-33 and the adders of `Adders.Order`: the equipment is in the index before its terminal is built and attached |
| C29 | `Adders.line_half_attached` | LineAdder.cpp l.41-50 (also tie lines and transformers): the dry run does not check that the nodes are free |
| C29 | `Adders.leftover_detaches_other` | NodeBreakerVoltageLevel.cpp l.133-142: only assertions check that the vertex holds the terminal |
| C27 | `Removal.bus_with_load_undefined` | VoltageLevel.cpp l.241-243 iterates on the lists of terminals that ConfiguredBus.cpp l.177-188 erases from |
| C27 | `Removal.unlinked_node_undefined` | VoltageLevel.cpp l.241-243 iterates on `m_vertices`, shortened by `removeIsolatedVertices` |
| C27 | `Removal.internal_connection_half_removed` | NodeBreakerVoltageLevel.cpp l.386: the null object of an internal connection is converted to `Switch&` and throws |
| (C27) | `Removal.substation_undefined`, `Removal.substation_never` | Substation.cpp l.133-149 iterates on the vector from which `VoltageLevel::remove` erases |
| C56 | `Move.alias_lost`, `Move.alias_taken_twice` | NetworkIndex.cpp l.40-42: `m_idByAlias` is not moved |
| C56 | `Move.removed_variant_undefined` | VariantArray.hxx l.36-38: null slots are dereferenced |
| C54 | `NetComponents.stale_after_hvdc_added`, `NetComponents.stale_after_hvdc_removed` | HvdcLineAdder.cpp l.30-41 and HvdcLine.cpp l.123-132 invalidate no component |
| C44 | `Xml.logged_but_written` | IidmXmlUtil.cpp l.103-108: with LOG_ERROR the part is logged as not supported, then written; the readers (StaticVarCompensatorXml.cpp l.59, ThreeWindingsTransformerXml.cpp l.140-153) throw on it |
| C44 | `Xml.shunt_conductance_lost` | ShuntCompensatorXml.cpp l.159-167: nothing tests gPerSection before version 1.3 |
| C44 | `Xml.fictitious_lost` | AbstractIdentifiableXml.hxx l.75-77; the same for half lines, TieLineXml.cpp l.141-143, and ratedS, AbstractTransformerXml.hxx l.210-214 |
| C44 | `Xml.aliases_lost`, `Xml.alias_types_lost` | AbstractIdentifiableXml.hxx l.81-83 (the assertion inside AliasesXml.cpp l.37 is not reached before 1.3), AliasesXml.cpp l.40-45 |
| C45 | `Xml.empty_limits_lost` | AbstractConnectableXml.hxx l.174: limits without value are not written though the adder accepts them |
| C45 | `Xml.bus_switch_kind_lost` | BusBreakerViewSwitchXml.cpp l.32-44 and SwitchAdder.cpp l.67-77: kind and retained are written and not read |
| C45 | `Xml.blank_alias_unreadable` | AliasesXml.cpp l.32, XmlStreamReader.cpp l.251-260: an empty or blank text is not a text node |
| C60 | `Tap.setLowTapPosition_refused_but_stored` | TapChanger.hxx l.167-173: the shared bound is written before the variant index is asked for, which throws without working variant |
| C61 | `NetBuses.busBreakerView_destroyed`, `NetBuses.busBreakerView_missed` | NetworkViews.cpp l.88-90: `BusBreakerView::invalidateCache` invalidates the cache of the bus view; the one of the bus/breaker view keeps references to destroyed buses |
| C62 | `NodeBreaker.connectable_fails_after_addSwitch` | NodeBreakerVoltageLevel.cpp addSwitch keeps the caches; NodeBreakerVoltageLevelTopology.cpp l.157-189 then throws std::out_of_range for a new node |
| C64 | `NodeBreaker.attached_without_equipment` | NodeBreakerVoltageLevelViews.cpp l.282-284: `hasAttachedEquipment` is `vertexExists` |
| C66 | `Traverse.bus_terminals_missed` | BusBreakerVoltageLevel.cpp l.400: only `*otherBus.getTerminals().begin()` is asked about |
| C66 | `Traverse.terminal_accepted_twice` | BusBreakerVoltageLevel.cpp l.385-389: terminals accepted on the same bus are not added to `traversedTerminals` |
| C68 | `XmlNet.large_node_unreadable` | AbstractConnectableXml.hxx l.66-95: the nodes of a branch are read as `int`, so a branch connected to a node of 2^31 or more is exported and cannot be imported |
| C69 | `XmlNet.empty_generation_range` | DanglingLineGenerationAdder.cpp l.25: the bounds are compared before a missing one gets its default, so an infinite bound gives an empty range |
| C70 | `XmlNet.decorated_bus_unreadable` | BusXml.cpp l.41: the sub-elements of a bus are read until the end of a *substation*, so a bus with an alias or a property cannot be imported |
| C70 | `XmlNet.anonymized_switch_unwritable` | VoltageLevelXml.cpp l.180-181: the buses of a switch are looked for with its anonymized identifier, so an anonymized export of a bus/breaker voltage level with switches throws |
| C70 | `XmlNet.tag_with_comma_split`, `XmlNet.empty_tag_lost` | SubstationXml.cpp l.54-61, 97: tags are joined with commas, so a tag with a comma is split and a single empty tag is lost |
| C71 | `XmlNet.network_fictitious_lost` | NetworkXml.cpp l.308-311: whether the network is fictitious is not written |
| C73 | `XmlNet.anonymous_hvdc_refused`, `XmlNet.hvdc_stations_revealed` | HvdcLineXml.cpp l.39-40, 63-64: the converter stations of an HVDC line are neither anonymized nor deanonymized; they are revealed, and the document is refused without the file of the names |
| C74 | `Flow.boundary_without_impedance` | SV.cpp l.285-291: no finite value at the boundary of a half line without impedance |
| C75 | `Flow.usual_tie_line_wrong` | TieLine.cpp l.33-47: the shunt admittances at the boundary are added to those of the ends, so that the line that a tie line describes is not its two halves |
| C76 | `Measure.returns_another` | MeasurementAdder.cpp l.35: the new measurement is looked for by its identifier, so that the first one without identifier is returned |
| C76 | `Measure.set_valid_unchecked`, `Measure.set_value_unchecked` | Measurement.cpp l.129-137: a valid measurement can lose its value |
| C76 | `Measure.third_side_of_line` | MeasurementValidationUtil.cpp l.32-39: a side THREE is accepted on a line |
| C76 | `Measure.listed_in_loop` | Measurements.cpp l.61-75: the filter of a lazy range captures the type by reference |
| C77 | `Measure.discrete_without_type` | DiscreteMeasurementAdder.hpp l.83: the type of an adder is not initialised |
| C77 | `Measure.invalid_without_value` | DiscreteMeasurementValidationUtil.cpp l.64-82: what checkValue allows is refused by getValueType |
| C77 | `Measure.empty_string_accepted` | DiscreteMeasurement.cpp l.166-171: the empty string is a value |
| C77 | `Measure.discrete_returns_another` | DiscreteMeasurementAdder.cpp l.37: as for C76 |
| C78 | `ExtData.empty_feeder_name` | ConnectablePosition.cpp l.59-62: the name of a feeder can be emptied |
| C79 | `ExtXml.merged_names_lost` | MergedXnodeXmlSerializer.cpp l.46-55: the names of the two lines are not written |
| C79 | `ExtXml.droop_unreadable`, `ExtXml.feeder_unreadable`, `ExtXml.slack_unreadable`, `ExtXml.measurement_unreadable`, `ExtXml.empty_string_unreadable` | values that adders and setters accept are written so that the reader refuses the document (a slack terminal without terminal is not exported unless missing extensions throw) |
| C80 | `ExtNet.remote_control_fails_export`, `ExtNet.declined_extension_fails_export` | NetworkXml.cpp l.169-174: an extension without serializer (RemoteReactivePowerControl) or declined by its serializer (no measurement, slack terminal removed) makes the export fail (`AssertionError`) with the default options, where l.79-86 only warn |
| C80 | `ExtNet.slack_fails_old_versions` | AbstractVersionableExtensionXmlSerializer.cpp l.78-80: `std::out_of_range` when a network with a slack terminal is exported in a version 1.0 to 1.2 |
| C80 | `ExtNet.strict_export_unreadable` | NetworkXml.cpp l.75-76: with the option to throw `isSerializable` is not asked; the document written for a removed slack terminal is refused |
| C81 | `Slack.unreadable_after_removal`, `Slack.lost_by_removal` | SlackTerminal.cpp l.84-86: `resize(number)`; after the removal of the last of three variants the second one reads out of bounds, or a later clone has no slack terminal |
| C81 | `Slack.returned_reference_dangles_iff` | SlackTerminal.cpp l.115-121: `return *this` after `removeExtension<SlackTerminal>()` has destroyed the object |
| C81 | `Slack.empty_extension_stays`, `Slack.add_forgets_other_variants` | an extension without any terminal stays after the removal of a variant; the adder replaces the extension and forgets the terminals of the other variants |
| C83 | `BusState.not_read_back`, `BusState.invalidated_voltage` | CalculatedBus.cpp `setV`, `setAngle` write the terminals of the bus only while `getV`, `getAngle` read the reference terminal, that of another bus when the bus has none; MergedBus.cpp `getV` does not check the validity |
| C84 | `RegTerm.dangling_write`, `dangling_setter`, `foreign_ratio`, `foreign_control` | Connectable.cpp `remove` leaves the references other equipment holds to its terminals: writing such an equipment, or any setter of a phase tap changer, then reads a destroyed terminal. RatioTapChangerAdder.cpp checks the network of the terminal only when regulating; RemoteReactivePowerControlAdder.cpp never does |
| C85 | `LimitSet.active_negative`, `leg_constructor_undefined` | Branch.cpp `getValueForLimit` compares the signed active power with its limit: a flow that leaves by a side never overloads that side. ThreeWindingsTransformerLeg.cpp l.24 makes the name of its limits from `m_legNumber`, which is initialised later: an indeterminate value is read at each construction (the name is never used) |
| C86 | `XmlOld.svc_old_refused`, `silent_losses`, `half_flag_lost`, `boundary_check_wrong` | StaticVarCompensatorXml.cpp l.84-87: in version 1.0 a regulating terminal is reported and written all the same when errors are logged, and the reader refuses the document. AbstractIdentifiableXml.hxx l.72-83, AliasesXml.cpp l.41-43, TieLineXml.cpp l.138-140: the flag of fictitious equipment, aliases, their types and the flag of halves are dropped silently in the versions that do not have them, even with the behaviour that throws. TieLineXml.cpp l.81 and 87: the reactive power of the second half is read from the attribute of the first one, and reported under the name of an active power: importing what was just exported gives a warning on a value that is right, and a wrong value is not seen |
| C87 | `XmlOld.three_windings_transformer_refused`, `rated_s_lost`, `deadband_lost` | ThreeWindingsTransformerXml.cpp l.209-222: in version 1.0 the tap changers that it does not have are reported and written all the same when errors are logged, and the reader refuses the document. AbstractTransformerXml.hxx l.209-214 and 255-260: rated apparent powers and dead bands of 0 are dropped silently before version 1.2 |
| C88 | `XmlOld.network_aliases_refused`, `shunt_conductance_dropped` | NetworkXml.cpp l.313: the aliases of the network are written in every version (those of other identifiables only from 1.3, AbstractIdentifiableXml.hxx l.81): before 1.3, with the behaviour that logs, the document has them and l.250 refuses to read it. ShuntCompensatorXml.cpp l.155-174: before version 1.3 the conductance of the sections is dropped silently, even with the behaviour that throws |
| C89 | `Coarse.nowhere_refused`, `alone_nowhere`, `anonymized_switch_refused`, `taken_name_refused`, `kind_lost`, `filter_keeps_all`, `filter_inverted` | AbstractConnectableXml.hxx l.139-147: a terminal whose bus is in no merged bus (a load on a bus without any branch, at the BUS_BRANCH level) is written without bus nor connectableBus, and the import of the document throws. The buses of the views are called after the voltage level and a number, a name that another object may have: the document is written, its import throws. VoltageLevelXml.cpp l.180-181: the buses of a switch are asked for with its anonymized identifier, so a voltage level with a retained switch cannot be exported at this level with anonymization. BusBreakerViewSwitchXml.cpp l.32-44: the kind of a retained switch is not read back. BusFilter.cpp l.32-44: the option to export the main component only has no effect; l.50-62: with a set of buses, the equipment on those buses would be left out instead of kept |
| C90 | `CompBuses.destroyed_undefined`, `invalidated_main` | AbstractComponentsManager.cpp l.94-97: any change of topology destroys the components, references to them dangle, though `getComponents` and `getConnectedComponent` give references to callers. MergedBus.cpp l.137-143: no validity check, an invalidated merged bus answers that it is not in the main component; a calculated bus throws |
| C92 | `BusRefs.bus_without_terminal` | IdBasedBusRef.cpp l.36-43: at the BUS_BRANCH level a configured bus is looked for through its connected terminals: one without any (a bus used as a coupling point, or whose equipment is out of service) resolves to no bus, though it is part of a bus of the bus view. |
| C94 | `Setters.step_unset_accepted`, `Setters.capabilities_unchecked`, `Setters.fixed_tap_made_regulating`, `Setters.two_made_regulating`, `Setters.energy_source_unchecked`, `Setters.country_unchecked`, `Setters.unsafe_call_unreadable` | `TapChangerStep.hxx` l. 52-79, `RatioTapChanger.cpp` l. 58-62, `TapChanger.hxx` l. 176-181, `Generator.cpp` l. 134-137, `Substation.cpp` l. 164-167: accepted values that no adder accepts; what is then exported is refused or read as another network |
| C98 | `Build.unknown_source_breaks`, `Build.unknown_country_breaks`, `Build.unknown_switch_breaks` | GeneratorAdder.cpp l.24-46, SubstationAdder.cpp l.22-27, SwitchAdder.cpp l.26-37: the value of the enumeration is not checked; `spoilt_injection_iff` says when C29 happens |
| C99 | `Remove.regulated_removed`, `Remove.regulated_level_removed`, `Remove.shared_station_removed` | Connectable.cpp l.95-104, VoltageLevel.cpp l.237-251: regulating terminals are not looked at (C84); HvdcLine.cpp l.123-133: a station that another line has is released (C28) |
