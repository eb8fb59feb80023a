import Verif.Model.Exporter
import Verif.Model.Numbers

/-!
# Model of the long and short term prognosis reports

* `presentation/exporter/configs/configs.py` (`LTPConfig`, `STPConfig`)
* `presentation/exporter/appliers.py`, `aggregators.py`
* `presentation/exporter/formatters/formatter.py`, `index_formatter.py`, `configs/formatter_config.py`

Queries and attributes are in `Verif/Model/Exporter.lean`, the text of numbers in `Verif/Model/Numbers.lean`. Not
modelled: the log, writing files, how `strftime` writes years and months (a parameter).
-/

namespace Verif.Prognosis
open Verif.Time Verif.Rates Verif.Units Verif.Exporter Verif.Numbers

/-- The classes of queries (queries.py:40-323). -/
inductive Query where
  | fuel | emission | storage | production | peak | power
  deriving DecidableEq, Repr

/-- `Applier` (appliers.py:63-87): the modifier is `FormatValuesToPrecisionModifier()`, after
`InvertValuesModifier()` if `invert`. -/
structure Column where
  name : String
  title : String
  unit : EUnit
  query : Query
  filter : Filter
  invert : Bool
  deriving DecidableEq, Repr

/-- `LTPConfig.aggregator` (configs.py:55-638). -/
def ltp : List Column := [
  ⟨"turbineFuelGasConsumption", "Fuel Consumption", .STANDARD_CUBIC_METER, .fuel,
    ⟨some "FIXED", some "FUEL-GAS", some ["TURBINE-GENERATOR", "GAS-DRIVEN-COMPRESSOR"], none, none⟩, false⟩,
  ⟨"flareGasConsumption", "Flare Gas", .STANDARD_CUBIC_METER, .fuel,
    ⟨some "FIXED", none, some ["FLARE"], none, none⟩, false⟩,
  ⟨"engineDieselConsumption", "Diesel Consumption", .LITRES, .fuel,
    ⟨some "FIXED", some "DIESEL", none, none, none⟩, false⟩,
  ⟨"engineNoCo2TaxDieselConsumption", "No CO2 Tax Diesel Consumption", .LITRES, .fuel,
    ⟨some "MOBILE", some "DIESEL", none, none, none⟩, false⟩,
  ⟨"boilerFuelGasConsumption", "Boiler Fuel Consumption", .STANDARD_CUBIC_METER, .fuel,
    ⟨some "FIXED", some "FUEL-GAS", some ["BOILER"], none, none⟩, false⟩,
  ⟨"boilerDieselConsumption", "Boiler Diesel Consumption", .LITRES, .fuel,
    ⟨some "FIXED", some "DIESEL", some ["BOILER"], none, none⟩, false⟩,
  ⟨"heaterFuelGasConsumption", "Heater Fuel Consumption", .STANDARD_CUBIC_METER, .fuel,
    ⟨some "FIXED", some "FUEL-GAS", some ["HEATER"], none, none⟩, false⟩,
  ⟨"heaterDieselConsumption", "Heater Diesel Consumption", .LITRES, .fuel,
    ⟨some "FIXED", some "DIESEL", some ["HEATER"], none, none⟩, false⟩,
  ⟨"turbineFuelGasCo2Mass", "CO2 From Fuel Gas", .TONS, .emission,
    ⟨some "FIXED", some "FUEL-GAS", some ["TURBINE-GENERATOR", "GAS-DRIVEN-COMPRESSOR"], none, some "co2"⟩, false⟩,
  ⟨"flareGasCo2Mass", "CO2 From Flare", .TONS, .emission, ⟨some "FIXED", none, some ["FLARE"], none, some "co2"⟩, false⟩,
  ⟨"engineDieselCo2Mass", "CO2 From Diesel", .TONS, .emission,
    ⟨some "FIXED", some "DIESEL", none, none, some "co2"⟩, false⟩,
  ⟨"engineNoCo2TaxDieselCo2Mass", "CO2 From Diesel No CO2 Tax", .TONS, .emission,
    ⟨some "MOBILE", some "DIESEL", none, none, some "co2"⟩, false⟩,
  ⟨"boilerFuelGasCo2Mass", "CO2 From Boiler Fuel Gas", .TONS, .emission,
    ⟨some "FIXED", some "FUEL-GAS", some ["BOILER"], none, some "co2"⟩, false⟩,
  ⟨"boilerDieselCo2Mass", "CO2 From Boiler Diesel", .TONS, .emission,
    ⟨some "FIXED", some "DIESEL", some ["BOILER"], none, some "co2"⟩, false⟩,
  ⟨"heaterFuelGasCo2Mass", "CO2 From Heater Fuel Gas", .TONS, .emission,
    ⟨some "FIXED", some "FUEL-GAS", some ["HEATER"], none, some "co2"⟩, false⟩,
  ⟨"heaterDieselCo2Mass", "CO2 From Heater Diesel", .TONS, .emission,
    ⟨some "FIXED", some "DIESEL", some ["HEATER"], none, some "co2"⟩, false⟩,
  ⟨"co2VentingMass", "CO2 From Cold Venting Fugitives", .TONS, .emission,
    ⟨some "FIXED", none, some ["COLD-VENTING-FUGITIVE"], none, some "co2"⟩, false⟩,
  ⟨"turbineFuelGasNoxMass", "NOX From Fuel Gas", .TONS, .emission,
    ⟨some "FIXED", some "FUEL-GAS", some ["TURBINE-GENERATOR", "GAS-DRIVEN-COMPRESSOR"], none, some "nox"⟩, false⟩,
  ⟨"flareGasNoxMass", "NOX From Flare", .TONS, .emission, ⟨some "FIXED", none, some ["FLARE"], none, some "nox"⟩, false⟩,
  ⟨"engineDieselNoxMass", "NOX From Diesel", .TONS, .emission,
    ⟨some "FIXED", some "DIESEL", none, none, some "nox"⟩, false⟩,
  ⟨"engineNoCo2TaxDieselNoxMass", "NOX From Diesel", .TONS, .emission,
    ⟨some "MOBILE", some "DIESEL", none, none, some "nox"⟩, false⟩,
  ⟨"boilerFuelGasNoxMass", "NOX From Boiler Fuel Gas", .TONS, .emission,
    ⟨some "FIXED", some "FUEL-GAS", some ["BOILER"], none, some "nox"⟩, false⟩,
  ⟨"boilerDieselNoxMass", "NOX From Boiler Diesel", .TONS, .emission,
    ⟨some "FIXED", some "DIESEL", some ["BOILER"], none, some "nox"⟩, false⟩,
  ⟨"heaterFuelGasNoxMass", "NOX From Heater Fuel Gas", .TONS, .emission,
    ⟨some "FIXED", some "FUEL-GAS", some ["HEATER"], none, some "nox"⟩, false⟩,
  ⟨"heaterDieselNoxMass", "NOX From Heater Diesel", .TONS, .emission,
    ⟨some "FIXED", some "DIESEL", some ["HEATER"], none, some "nox"⟩, false⟩,
  ⟨"turbineFuelGasNmvocMass", "NMVOC From Fuel Gas", .TONS, .emission,
    ⟨some "FIXED", some "FUEL-GAS", some ["TURBINE-GENERATOR", "GAS-DRIVEN-COMPRESSOR"], none, some "nmvoc"⟩, false⟩,
  ⟨"flareGasNmvocMass", "NMVOC From Flare", .TONS, .emission,
    ⟨some "FIXED", none, some ["FLARE"], none, some "nmvoc"⟩, false⟩,
  ⟨"engineDieselNmvocMass", "NMVOC From Diesel", .TONS, .emission,
    ⟨some "FIXED", some "DIESEL", none, none, some "nmvoc"⟩, false⟩,
  ⟨"engineNoCo2TaxDieselNmvocMass", "NMVOC From Diesel", .TONS, .emission,
    ⟨some "MOBILE", some "DIESEL", none, none, some "nmvoc"⟩, false⟩,
  ⟨"boilerFuelGasNmvocMass", "NMVOC From Boiler Fuel Gas", .TONS, .emission,
    ⟨some "FIXED", some "FUEL-GAS", some ["BOILER"], none, some "nmvoc"⟩, false⟩,
  ⟨"boilerDieselNmvocMass", "NMVOC From Boiler Diesel", .TONS, .emission,
    ⟨some "FIXED", some "DIESEL", some ["BOILER"], none, some "nmvoc"⟩, false⟩,
  ⟨"heaterFuelGasNmvocMass", "NMVOC From Heater Fuel Gas", .TONS, .emission,
    ⟨some "FIXED", some "FUEL-GAS", some ["HEATER"], none, some "nmvoc"⟩, false⟩,
  ⟨"heaterDieselNmvocMass", "NMVOC From Heater Diesel", .TONS, .emission,
    ⟨some "FIXED", some "DIESEL", some ["HEATER"], none, some "nmvoc"⟩, false⟩,
  ⟨"coldVentAndFugitivesNmvocMass", "NMVOC From Cold Venting Fugitives", .TONS, .emission,
    ⟨some "FIXED", none, some ["COLD-VENTING-FUGITIVE"], none, some "nmvoc"⟩, false⟩,
  ⟨"coldVentAndFugitivesNoCo2TaxNmvocMass", "NMVOC From Cold Venting Fugitives", .TONS, .emission,
    ⟨some "MOBILE", none, some ["COLD-VENTING-FUGITIVE"], none, some "nmvoc"⟩, false⟩,
  ⟨"storageNmvocMass", "NMVOC From Storage", .TONS, .emission,
    ⟨some "FIXED", none, some ["STORAGE"], none, some "nmvoc"⟩, false⟩,
  ⟨"loadingNmvocMass", "NMVOC From Loading", .TONS, .emission,
    ⟨some "FIXED", none, some ["LOADING"], none, some "nmvoc"⟩, false⟩,
  ⟨"turbineFuelGasCh4Mass", "CH4 From Fuel Gas", .TONS, .emission,
    ⟨some "FIXED", some "FUEL-GAS", some ["TURBINE-GENERATOR", "GAS-DRIVEN-COMPRESSOR"], none, some "ch4"⟩, false⟩,
  ⟨"flareGasCh4Mass", "CH4 From Flare", .TONS, .emission, ⟨some "FIXED", none, some ["FLARE"], none, some "ch4"⟩, false⟩,
  ⟨"engineDieselCh4Mass", "CH4 From Diesel", .TONS, .emission,
    ⟨some "FIXED", some "DIESEL", none, none, some "ch4"⟩, false⟩,
  ⟨"engineNoCo2TaxDieselCh4Mass", "CH4 From Diesel No CO2 Tax", .TONS, .emission,
    ⟨some "MOBILE", some "DIESEL", none, none, some "ch4"⟩, false⟩,
  ⟨"boilerFuelGasCh4Mass", "CH4 From Boiler Fuel Gas", .TONS, .emission,
    ⟨some "FIXED", some "FUEL-GAS", some ["BOILER"], none, some "ch4"⟩, false⟩,
  ⟨"boilerDieselCh4Mass", "CH4 From Boiler Diesel", .TONS, .emission,
    ⟨some "FIXED", some "DIESEL", some ["BOILER"], none, some "ch4"⟩, false⟩,
  ⟨"heaterFuelGasCh4Mass", "CH4 From Heater Fuel Gas", .TONS, .emission,
    ⟨some "FIXED", some "FUEL-GAS", some ["HEATER"], none, some "ch4"⟩, false⟩,
  ⟨"heaterDieselCh4Mass", "CH4 From Heater Diesel", .TONS, .emission,
    ⟨some "FIXED", some "DIESEL", some ["HEATER"], none, some "ch4"⟩, false⟩,
  ⟨"coldVentAndFugitivesCh4Mass", "CH4 From Cold Venting Fugitives", .TONS, .emission,
    ⟨some "FIXED", none, some ["COLD-VENTING-FUGITIVE"], none, some "ch4"⟩, false⟩,
  ⟨"coldVentAndFugitivesNoCo2TaxCh4Mass", "CH4 From Cold Venting Fugitives", .TONS, .emission,
    ⟨some "MOBILE", none, some ["COLD-VENTING-FUGITIVE"], none, some "ch4"⟩, false⟩,
  ⟨"storageCh4Mass", "CH4 From Storage", .TONS, .emission,
    ⟨some "FIXED", none, some ["STORAGE"], none, some "ch4"⟩, false⟩,
  ⟨"loadingCh4Mass", "CH4 From Loading", .TONS, .emission,
    ⟨some "FIXED", none, some ["LOADING"], none, some "ch4"⟩, false⟩,
  ⟨"loadedAndStoredOil", "Total Oil Loaded/Stored", .STANDARD_CUBIC_METER, .storage,
    ⟨some "FIXED", none, some ["LOADING"], none, none⟩, false⟩,
  ⟨"gasTurbineGeneratorConsumption", "Total Electricity Generated", .GIGA_WATT_HOURS, .production,
    ⟨some "FIXED", none, none, some ["TURBINE-GENERATOR"], none⟩, false⟩,
  ⟨"gasTurbineCompressorConsumption", "Total Power Consumed By Gas-Turbine Driven Compressors", .GIGA_WATT_HOURS, .power,
    ⟨some "FIXED", none, some ["GAS-DRIVEN-COMPRESSOR"], none, none⟩, false⟩,
  ⟨"offshoreWindConsumption", "Total Electricity Consumed From Offshore Wind", .GIGA_WATT_HOURS, .power,
    ⟨some "FIXED", none, some ["OFFSHORE-WIND"], none, none⟩, true⟩,
  ⟨"fromShoreConsumption", "Total Electricity Consumed From Power-From-Shore", .GIGA_WATT_HOURS, .power,
    ⟨none, none, none, some ["POWER-FROM-SHORE"], none⟩, false⟩,
  ⟨"powerSupplyOnshore", "Power Supply Onshore", .GIGA_WATT_HOURS, .production,
    ⟨none, none, none, some ["POWER-FROM-SHORE"], none⟩, false⟩,
  ⟨"fromShorePeakMaximum", "Max Usage from Shore", .MEGA_WATT, .peak,
    ⟨none, none, none, some ["POWER-FROM-SHORE"], none⟩, false⟩,
  ⟨"steamTurbineGeneratorConsumption", "Total Electricity Consumed From Steam Turbine Generators", .GIGA_WATT_HOURS, .power,
    ⟨some "FIXED", none, some ["STEAM-TURBINE-GENERATOR"], none, none⟩, true⟩]

/-- `STPConfig.aggregator` (configs.py:654-717). -/
def stp : List Column := [
  ⟨"co2Emission", "Total CO2", .TONS, .emission, ⟨some "FIXED", none, none, none, some "co2"⟩, false⟩,
  ⟨"co2FromMobileUnits", "Total CO2", .TONS, .emission, ⟨some "MOBILE", none, none, none, some "co2"⟩, false⟩,
  ⟨"methaneEmission", "Total CH4", .TONS, .emission, ⟨some "FIXED", none, none, none, some "ch4"⟩, false⟩,
  ⟨"flareGasCo2Mass", "CO2 From Flare", .TONS, .emission, ⟨some "FIXED", none, some ["FLARE"], none, some "co2"⟩, false⟩,
  ⟨"flareGasCh4Mass", "CH4 From Flare", .TONS, .emission, ⟨some "FIXED", none, some ["FLARE"], none, some "ch4"⟩, false⟩,
  ⟨"powerSupplyOnshore", "Power Supply Onshore", .GIGA_WATT_HOURS, .production,
    ⟨none, none, none, some ["POWER-FROM-SHORE"], none⟩, false⟩,
  ⟨"flare", "Flare", .STANDARD_CUBIC_METER, .fuel, ⟨some "FIXED", none, some ["FLARE"], none, none⟩, false⟩]

/-- What an installation exports (infrastructure.py:41-290), in a unit, except for fuel. -/
structure Data where
  fuel : List Attribute
  emissions : EUnit → Except Err (List Attribute)
  storage : EUnit → Except Err (List Attribute)
  production : EUnit → Except Err (List Attribute)
  peak : EUnit → Except Err (List Attribute)
  power : EUnit → Except Err (List Attribute)

/-- The attributes a query asks for (queries.py:77, 125, 170, 216, 255, 301). -/
def Data.of (d : Data) (q : Query) (unit : EUnit) : Except Err (List Attribute) :=
  match q with
  | .fuel => .ok d.fuel
  | .emission => d.emissions unit
  | .storage => d.storage unit
  | .production => d.production unit
  | .peak => d.peak unit
  | .power => d.power unit

/-- `Query.query` of a column (queries.py:67-323); nothing is asked of an installation of another category. -/
def Column.values (c : Column) (freq : Frequency) (e : Exportable) (d : Data) :
    Except Err (Option (List (Period × Fl))) :=
  if wrongInstallation c.filter e then .ok none
  else do
    let attributes ← d.of c.query c.unit
    match c.query with
    | .peak => queryMax c.filter c.unit freq e attributes
    | .emission => queryVolumes c.filter true c.unit freq e attributes
    | _ => queryVolumes c.filter false c.unit freq e attributes

/-- `InvertValuesModifier._modify` (appliers.py:49-53). -/
def inverted (v : Fl) : Fl := if v = some 0 then some 0 else v.map fun x => -1 * x

/-- `FormatValuesToPrecisionModifier._modify` (appliers.py:56-62) with `LTP_PRECISION` (configs.py:27); what is not a
number has no text here. -/
def shown (v : Fl) : Option Numeral :=
  match v with
  | none => none
  | some x =>
    match format x 6 with
    | .ok t => some t
    | .error _ => none

/-- The modifier of a column (appliers.py:75-76, configs.py:55-638). -/
def Column.modifier (c : Column) (v : Fl) : Option Numeral := shown (if c.invert then inverted v else v)

/-- `Applier.apply` (appliers.py:88-103). -/
def Column.result (c : Column) (freq : Frequency) (e : Exportable) (d : Data) :
    Except Err (Option (Column × List (Period × Option Numeral))) := do
  let values ← c.values freq e d
  return (apply c.modifier values).map fun r => (c, r)

/-- The loop over appliers for one installation (aggregators.py:74-80). -/
def results (columns : List Column) (freq : Frequency) (e : Exportable) (d : Data) :
    Except Err (List (Column × List (Period × Option Numeral))) :=
  (columns.mapM fun c => Column.result c freq e d).map fun rs => rs.filterMap id

/-- `Unit.__str__` is its value (units.py:45-88); only those of the reports matter here. -/
def unitText : EUnit → String
  | .STANDARD_CUBIC_METER => "Sm3"
  | .LITRES => "L"
  | .TONS => "t"
  | .GIGA_WATT_HOURS => "GWh"
  | .MEGA_WATT => "MW"
  | _ => ""

/-- `QueryResult.get_title` (dtos.py:35-36). -/
def Column.heading (c : Column) : String := c.title ++ "[" ++ unitText c.unit ++ "]"

/-- Text of a cell: `str(value)`. -/
def cellText : Option Numeral → String
  | some t => t.text
  | none => "nan"

/-- `CSVFormatter.format` (formatter.py:25-47) as lines of cells, with the two index columns of `PeriodFormatterConfig`
(formatter_config.py:30-44, index_formatter.py:54-74). -/
def sheet (year month : DateTime → String) (rs : List (Column × List (Period × Option Numeral))) :
    Except Err (List (List String)) := do
  let named := rs.map fun r => (r.1.name, r.2)
  let rowIds ← rows named
  let body ← rowIds.mapM fun p => do
    let cells ← rs.mapM fun r => cell named p r.1.name
    return year p.start :: month p.start :: cells.map cellText
  let headings := rs.map fun r =>
    match rs.find? fun r' => decide (r'.1.name = r.1.name) with
    | some r' => r'.1.heading
    | none => ""
  return ("forecastYear" :: "forecastMonth" :: rs.map fun r => r.1.name) ::
    ("#Years" :: "Months" :: headings) :: body

/-- `export_tsv` for one installation (output.py:131-160, filters.py:18-23, aggregators.py:71-86). -/
def report (columns : List Column) (year month : DateTime → String) (freq : Frequency) (e : Exportable) (d : Data) :
    Except Err (List (List String)) := do
  let rs ← results columns freq e d
  sheet year month rs

end Verif.Prognosis
