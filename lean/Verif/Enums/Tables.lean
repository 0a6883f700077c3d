import Verif.Enums.Model

/-! The enumerations with a `getNames` table in the library and in its extensions, in the order of the sources. -/

namespace Verif.Enums

/-- Enumerators: extensions/entsoe/include/powsybl/iidm/extensions/entsoe/EntsoeGeographicalCode.hpp from l.19; names: extensions/entsoe/src/EntsoeGeographicalCode.cpp from l.19. -/
def entsoeGeographicalCode : Table where
  enumerators := [
    "AL", "AT", "BA", "BE", "BG", "BY", "CH", "CZ", "DE", "D1", "D2", "D4", "D7", "D8", "DK", "ES", "FR", "GB", "GR", "HR", "HU", "IT",
    "KS", "LU", "LT", "MA", "MD", "ME", "MK", "NL", "NO", "PL", "PT", "RO", "RS", "RU", "SE", "SK", "SI", "TR", "UA", "UC", "UX"]
  names := [
    "AL", "AT", "BA", "BE", "BG", "BY", "CH", "CZ", "DE", "D1", "D2", "D4", "D7", "D8", "DK", "ES", "FR", "GB", "GR", "HR", "HU", "IT",
    "KS", "LU", "LT", "MA", "MD", "ME", "MK", "NL", "NO", "PL", "PT", "RO", "RS", "RU", "SE", "SK", "SI", "TR", "UA", "UC", "UX"]

/-- Enumerators: extensions/iidm/include/powsybl/iidm/extensions/iidm/DiscreteMeasurement.hpp from l.35; names: extensions/iidm/src/DiscreteMeasurement.cpp from l.25. -/
def discreteMeasurementType : Table where
  enumerators := [
    "TAP_POSITION", "SWITCH_POSITION", "SHUNT_COMPENSATOR_SECTION", "OTHER"]
  names := [
    "TAP_POSITION", "SWITCH_POSITION", "SHUNT_COMPENSATOR_SECTION", "OTHER"]

/-- Enumerators: extensions/iidm/include/powsybl/iidm/extensions/iidm/DiscreteMeasurement.hpp from l.46; names: extensions/iidm/src/DiscreteMeasurement.cpp from l.36. -/
def discreteMeasurementTapChanger : Table where
  enumerators := [
    "RATIO_TAP_CHANGER", "PHASE_TAP_CHANGER", "RATIO_TAP_CHANGER_1", "PHASE_TAP_CHANGER_1", "RATIO_TAP_CHANGER_2", "PHASE_TAP_CHANGER_2",
    "RATIO_TAP_CHANGER_3", "PHASE_TAP_CHANGER_3"]
  names := [
    "RATIO_TAP_CHANGER", "PHASE_TAP_CHANGER", "RATIO_TAP_CHANGER_1", "PHASE_TAP_CHANGER_1", "RATIO_TAP_CHANGER_2", "PHASE_TAP_CHANGER_2",
    "RATIO_TAP_CHANGER_3", "PHASE_TAP_CHANGER_3"]

/-- Enumerators: extensions/iidm/include/powsybl/iidm/extensions/iidm/DiscreteMeasurement.hpp from l.60; names: extensions/iidm/src/DiscreteMeasurement.cpp from l.51. -/
def discreteMeasurementValueType : Table where
  enumerators := [
    "BOOLEAN", "INT", "STRING"]
  names := [
    "BOOLEAN", "INT", "STRING"]

/-- Enumerators: extensions/iidm/include/powsybl/iidm/extensions/iidm/Measurement.hpp from l.33; names: extensions/iidm/src/Measurement.cpp from l.22. -/
def measurementSide : Table where
  enumerators := [
    "ONE", "TWO", "THREE"]
  names := [
    "ONE", "TWO", "THREE"]

/-- Enumerators: extensions/iidm/include/powsybl/iidm/extensions/iidm/Measurement.hpp from l.42; names: extensions/iidm/src/Measurement.cpp from l.32. -/
def measurementType : Table where
  enumerators := [
    "ANGLE", "ACTIVE_POWER", "APPARENT_POWER", "REACTIVE_POWER", "CURRENT", "VOLTAGE", "FREQUENCY", "OTHER"]
  names := [
    "ANGLE", "ACTIVE_POWER", "APPARENT_POWER", "REACTIVE_POWER", "CURRENT", "VOLTAGE", "FREQUENCY", "OTHER"]

/-- Enumerators: extensions/sld/include/powsybl/iidm/extensions/sld/BranchStatus.hpp from l.25; names: extensions/sld/src/BranchStatus.cpp from l.20. -/
def branchStatusStatus : Table where
  enumerators := [
    "IN_OPERATION", "PLANNED_OUTAGE", "FORCED_OUTAGE"]
  names := [
    "IN_OPERATION", "PLANNED_OUTAGE", "FORCED_OUTAGE"]

/-- Enumerators: extensions/sld/include/powsybl/iidm/extensions/sld/ConnectablePosition.hpp from l.26; names: extensions/sld/src/ConnectablePosition.cpp from l.21. -/
def connectablePositionDirection : Table where
  enumerators := [
    "TOP", "BOTTOM", "UNDEFINED"]
  names := [
    "TOP", "BOTTOM", "UNDEFINED"]

/-- Enumerators: include/powsybl/iidm/Branch.hpp from l.29; names: src/iidm/Branch.cpp from l.358. -/
def branchSide : Table where
  enumerators := [
    "ONE", "TWO"]
  names := [
    "ONE", "TWO"]

/-- Enumerators: include/powsybl/iidm/ConnectableType.hpp from l.17; names: src/iidm/ConnectableType.cpp from l.19. -/
def connectableType : Table where
  enumerators := [
    "BUSBAR_SECTION", "LINE", "TWO_WINDINGS_TRANSFORMER", "THREE_WINDINGS_TRANSFORMER", "GENERATOR", "BATTERY", "LOAD",
    "SHUNT_COMPENSATOR", "DANGLING_LINE", "STATIC_VAR_COMPENSATOR", "HVDC_CONVERTER_STATION"]
  names := [
    "BUSBAR_SECTION", "LINE", "TWO_WINDINGS_TRANSFORMER", "THREE_WINDINGS_TRANSFORMER", "GENERATOR", "BATTERY", "LOAD",
    "SHUNT_COMPENSATOR", "DANGLING_LINE", "STATIC_VAR_COMPENSATOR", "HVDC_CONVERTER_STATION"]

/-- Enumerators: include/powsybl/iidm/Country.hpp from l.17; names: src/iidm/Country.cpp from l.284. -/
def country : Table where
  enumerators := [
    "AF", "AX", "AL", "DZ", "AS", "AD", "AO", "AI", "AQ", "AG", "AR", "AM", "AW", "AU", "AT", "AZ", "BS", "BH", "BD", "BB", "BY", "BE",
    "BZ", "BJ", "BM", "BT", "BO", "BQ", "BA", "BW", "BV", "BR", "IO", "BN", "BG", "BF", "BI", "KH", "CM", "CA", "CV", "KY", "CF", "TD",
    "CL", "CN", "CX", "CC", "CO", "KM", "CG", "CD", "CK", "CR", "CI", "HR", "CU", "CW", "CY", "CZ", "DK", "DJ", "DM", "DO", "EC", "EG",
    "SV", "GQ", "ER", "EE", "ET", "FK", "FO", "FJ", "FI", "FR", "GF", "PF", "TF", "GA", "GM", "GE", "DE", "GH", "GI", "GR", "GL", "GD",
    "GP", "GU", "GT", "GG", "GN", "GW", "GY", "HT", "HM", "VA", "HN", "HK", "HU", "IS", "IN", "ID", "IR", "IQ", "IE", "IM", "IL", "IT",
    "JM", "JP", "JE", "JO", "KZ", "KE", "KI", "KP", "KR", "XK", "KW", "KG", "LA", "LV", "LB", "LS", "LR", "LY", "LI", "LT", "LU", "MO",
    "MK", "MG", "MW", "MY", "MV", "ML", "MT", "MH", "MQ", "MR", "MU", "YT", "MX", "FM", "MD", "MC", "MN", "ME", "MS", "MA", "MZ", "MM",
    "NA", "NR", "NP", "NL", "NC", "NZ", "NI", "NE", "NG", "NU", "NF", "MP", "NO", "OM", "PK", "PW", "PS", "PA", "PG", "PY", "PE", "PH",
    "PN", "PL", "PT", "PR", "QA", "RE", "RO", "RU", "RW", "BL", "SH", "KN", "LC", "MF", "PM", "VC", "WS", "SM", "ST", "SA", "SN", "RS",
    "SC", "SL", "SG", "SX", "SK", "SI", "SB", "SO", "ZA", "GS", "SS", "ES", "LK", "SD", "SR", "SJ", "SZ", "SE", "CH", "SY", "TW", "TJ",
    "TZ", "TH", "TL", "TG", "TK", "TO", "TT", "TN", "TR", "TM", "TC", "TV", "UG", "UA", "AE", "GB", "US", "UM", "UY", "UZ", "VU", "VE",
    "VN", "VG", "VI", "WF", "EH", "YE", "ZM", "ZW"]
  names := [
    "AF", "AX", "AL", "DZ", "AS", "AD", "AO", "AI", "AQ", "AG", "AR", "AM", "AW", "AU", "AT", "AZ", "BS", "BH", "BD", "BB", "BY", "BE",
    "BZ", "BJ", "BM", "BT", "BO", "BQ", "BA", "BW", "BV", "BR", "IO", "BN", "BG", "BF", "BI", "KH", "CM", "CA", "CV", "KY", "CF", "TD",
    "CL", "CN", "CX", "CC", "CO", "KM", "CG", "CD", "CK", "CR", "CI", "HR", "CU", "CW", "CY", "CZ", "DK", "DJ", "DM", "DO", "EC", "EG",
    "SV", "GQ", "ER", "EE", "ET", "FK", "FO", "FJ", "FI", "FR", "GF", "PF", "TF", "GA", "GM", "GE", "DE", "GH", "GI", "GR", "GL", "GD",
    "GP", "GU", "GT", "GG", "GN", "GW", "GY", "HT", "HM", "VA", "HN", "HK", "HU", "IS", "IN", "ID", "IR", "IQ", "IE", "IM", "IL", "IT",
    "JM", "JP", "JE", "JO", "KZ", "KE", "KI", "KP", "KR", "XK", "KW", "KG", "LA", "LV", "LB", "LS", "LR", "LY", "LI", "LT", "LU", "MO",
    "MK", "MG", "MW", "MY", "MV", "ML", "MT", "MH", "MQ", "MR", "MU", "YT", "MX", "FM", "MD", "MC", "MN", "ME", "MS", "MA", "MZ", "MM",
    "NA", "NR", "NP", "NL", "NC", "NZ", "NI", "NE", "NG", "NU", "NF", "MP", "NO", "OM", "PK", "PW", "PS", "PA", "PG", "PY", "PE", "PH",
    "PN", "PL", "PT", "PR", "QA", "RE", "RO", "RU", "RW", "BL", "SH", "KN", "LC", "MF", "PM", "VC", "WS", "SM", "ST", "SA", "SN", "RS",
    "SC", "SL", "SG", "SX", "SK", "SI", "SB", "SO", "ZA", "GS", "SS", "ES", "LK", "SD", "SR", "SJ", "SZ", "SE", "CH", "SY", "TW", "TJ",
    "TZ", "TH", "TL", "TG", "TK", "TO", "TT", "TN", "TR", "TM", "TC", "TV", "UG", "UA", "AE", "GB", "US", "UM", "UY", "UZ", "VU", "VE",
    "VN", "VG", "VI", "WF", "EH", "YE", "ZM", "ZW"]

/-- Enumerators: include/powsybl/iidm/EnergySource.hpp from l.17; names: src/iidm/EnergySource.cpp from l.19. -/
def energySource : Table where
  enumerators := [
    "HYDRO", "NUCLEAR", "WIND", "THERMAL", "SOLAR", "OTHER"]
  names := [
    "HYDRO", "NUCLEAR", "WIND", "THERMAL", "SOLAR", "OTHER"]

/-- Enumerators: include/powsybl/iidm/HvdcConverterStation.hpp from l.25; names: src/iidm/HvdcConverterStation.cpp from l.53. -/
def hvdcConverterStationHvdcType : Table where
  enumerators := [
    "VSC", "LCC"]
  names := [
    "LCC", "VSC"]

/-- Enumerators: include/powsybl/iidm/HvdcLine.hpp from l.26; names: src/iidm/HvdcLine.cpp from l.168. -/
def hvdcLineConvertersMode : Table where
  enumerators := [
    "SIDE_1_RECTIFIER_SIDE_2_INVERTER", "SIDE_1_INVERTER_SIDE_2_RECTIFIER"]
  names := [
    "SIDE_1_RECTIFIER_SIDE_2_INVERTER", "SIDE_1_INVERTER_SIDE_2_RECTIFIER"]

/-- Enumerators: include/powsybl/iidm/LimitType.hpp from l.15; names: src/iidm/LimitType.cpp from l.19. -/
def limitType : Table where
  enumerators := [
    "ACTIVE_POWER", "APPARENT_POWER", "CURRENT", "VOLTAGE"]
  names := [
    "ACTIVE_POWER", "APPARENT_POWER", "CURRENT", "VOLTAGE"]

/-- Enumerators: include/powsybl/iidm/LoadType.hpp from l.15; names: src/iidm/LoadType.cpp from l.19. -/
def loadType : Table where
  enumerators := [
    "UNDEFINED", "AUXILIARY", "FICTITIOUS"]
  names := [
    "UNDEFINED", "AUXILIARY", "FICTITIOUS"]

/-- Enumerators: include/powsybl/iidm/PhaseTapChanger.hpp from l.22; names: src/iidm/PhaseTapChanger.cpp from l.80. -/
def phaseTapChangerRegulationMode : Table where
  enumerators := [
    "CURRENT_LIMITER", "ACTIVE_POWER_CONTROL", "FIXED_TAP"]
  names := [
    "CURRENT_LIMITER", "ACTIVE_POWER_CONTROL", "FIXED_TAP"]

/-- Enumerators: include/powsybl/iidm/ShuntCompensatorModelType.hpp from l.15; names: src/iidm/ShuntCompensatorModelType.cpp from l.19. -/
def shuntCompensatorModelType : Table where
  enumerators := [
    "LINEAR", "NON_LINEAR"]
  names := [
    "LINEAR", "NON_LINEAR"]

/-- Enumerators: include/powsybl/iidm/StaticVarCompensator.hpp from l.24; names: src/iidm/StaticVarCompensator.cpp from l.133. -/
def staticVarCompensatorRegulationMode : Table where
  enumerators := [
    "VOLTAGE", "REACTIVE_POWER", "OFF"]
  names := [
    "VOLTAGE", "REACTIVE_POWER", "OFF"]

/-- Enumerators: include/powsybl/iidm/SwitchKind.hpp from l.17; names: src/iidm/SwitchKind.cpp from l.19. -/
def switchKind : Table where
  enumerators := [
    "BREAKER", "DISCONNECTOR", "LOAD_BREAK_SWITCH"]
  names := [
    "BREAKER", "DISCONNECTOR", "LOAD_BREAK_SWITCH"]

/-- Enumerators: include/powsybl/iidm/ThreeWindingsTransformer.hpp from l.22; names: src/iidm/ThreeWindingsTransformer.cpp from l.164. -/
def threeWindingsTransformerSide : Table where
  enumerators := [
    "ONE", "TWO", "THREE"]
  names := [
    "ONE", "TWO", "THREE"]

/-- Enumerators: include/powsybl/iidm/TopologyKind.hpp from l.17; names: src/iidm/TopologyKind.cpp from l.19. -/
def topologyKind : Table where
  enumerators := [
    "NODE_BREAKER", "BUS_BREAKER"]
  names := [
    "NODE_BREAKER", "BUS_BREAKER"]

/-- Enumerators: include/powsybl/iidm/TopologyLevel.hpp from l.19; names: src/iidm/TopologyLevel.cpp from l.40. -/
def topologyLevel : Table where
  enumerators := [
    "NODE_BREAKER", "BUS_BREAKER", "BUS_BRANCH"]
  names := [
    "NODE_BREAKER", "BUS_BREAKER", "BUS_BRANCH"]

/-- Enumerators: include/powsybl/iidm/converter/ExportOptions.hpp from l.38; names: src/iidm/converter/ExportOptions.cpp from l.27. -/
def exportOptionsIidmVersionIncompatibilityBehavior : Table where
  enumerators := [
    "THROW_EXCEPTION", "LOG_ERROR"]
  names := [
    "THROW_EXCEPTION", "LOG_ERROR"]

/-- Every enumeration with a table of names. -/
def allTables : List Table := [
  entsoeGeographicalCode, discreteMeasurementType, discreteMeasurementTapChanger, discreteMeasurementValueType, measurementSide,
  measurementType, branchStatusStatus, connectablePositionDirection, branchSide, connectableType,
  country, energySource, hvdcConverterStationHvdcType, hvdcLineConvertersMode, limitType,
  loadType, phaseTapChangerRegulationMode, shuntCompensatorModelType, staticVarCompensatorRegulationMode, switchKind,
  threeWindingsTransformerSide, topologyKind, topologyLevel, exportOptionsIidmVersionIncompatibilityBehavior]

end Verif.Enums
