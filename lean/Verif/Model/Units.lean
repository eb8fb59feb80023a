import Mathlib.Algebra.Order.Field.Rat

/-! # Model of `libecalc/common/units.py` -/

namespace Verif.Units

/-- `class Unit(StrEnum)` (units.py:46-88). -/
inductive EUnit where
  | NONE | KG_BOE | KG_SM3 | KG_M3 | STANDARD_CUBIC_METER | BOE
  | TONS_PER_DAY | TONS | KILO_PER_DAY | KILO_PER_HOUR | KILO
  | LITRES_PER_DAY | LITRES
  | MEGA_WATT_DAYS | GIGA_WATT_HOURS | MEGA_WATT
  | YEAR | BARA | KILO_PASCAL | PASCAL
  | CELSIUS | KELVIN | FRACTION | PERCENTAGE
  | POLYTROPIC_HEAD_KILO_JOULE_PER_KG | POLYTROPIC_HEAD_JOULE_PER_KG | POLYTROPIC_HEAD_METER_LIQUID_COLUMN
  | ACTUAL_VOLUMETRIC_M3_PER_HOUR | STANDARD_CUBIC_METER_PER_DAY
  | SPEED_RPM
  deriving DecidableEq, Repr

/-- Exceptions of this module. -/
inductive UErr where
  | notImplemented
  deriving DecidableEq, Repr

/-- `UnitConstants.EARTH_GRAVITY` (units.py:38). -/
def earthGravity : ℚ := 981 / 100

/-- `Unit._unit_registry` (units.py:93-143), one clause per registration, in source order.
Registered functions are affine, kept as Lean functions on ℚ. -/
def registry : EUnit → EUnit → Option (ℚ → ℚ)
  | .TONS_PER_DAY, .KILO_PER_DAY => some fun a => a * 1000
  | .KILO_PER_DAY, .TONS_PER_DAY => some fun a => a / 1000
  | .KILO, .TONS => some fun a => a / 1000
  | .TONS, .KILO => some fun a => a * 1000
  | .STANDARD_CUBIC_METER, .LITRES => some fun a => a * 1000
  | .LITRES, .STANDARD_CUBIC_METER => some fun a => a / 1000
  | .CELSIUS, .KELVIN => some fun a => a + 27315 / 100
  | .KELVIN, .CELSIUS => some fun a => a - 27315 / 100
  | .BARA, .KILO_PASCAL => some fun a => a * 100
  | .KILO_PASCAL, .BARA => some fun a => a / 100
  | .BARA, .PASCAL => some fun a => a * 100000
  | .PASCAL, .BARA => some fun a => a / 100000
  | .PERCENTAGE, .FRACTION => some fun a => a / 100
  | .FRACTION, .PERCENTAGE => some fun a => a * 100
  | .POLYTROPIC_HEAD_JOULE_PER_KG, .POLYTROPIC_HEAD_KILO_JOULE_PER_KG => some fun a => a / 1000
  | .POLYTROPIC_HEAD_KILO_JOULE_PER_KG, .POLYTROPIC_HEAD_JOULE_PER_KG => some fun a => a * 1000
  | .POLYTROPIC_HEAD_METER_LIQUID_COLUMN, .POLYTROPIC_HEAD_JOULE_PER_KG => some fun a => a * earthGravity
  | .POLYTROPIC_HEAD_METER_LIQUID_COLUMN, .POLYTROPIC_HEAD_KILO_JOULE_PER_KG =>
      some fun a => (a * earthGravity) / 1000
  | .POLYTROPIC_HEAD_JOULE_PER_KG, .POLYTROPIC_HEAD_METER_LIQUID_COLUMN => some fun a => a / earthGravity
  | .POLYTROPIC_HEAD_KILO_JOULE_PER_KG, .POLYTROPIC_HEAD_METER_LIQUID_COLUMN =>
      some fun a => (a * 1000) / earthGravity
  | .KG_BOE, .KG_SM3 => some fun a => a * (629 / 100)
  | .KG_SM3, .KG_BOE => some fun a => a / (629 / 100)
  | .STANDARD_CUBIC_METER, .BOE => some fun a => a * (629 / 100)
  | .BOE, .STANDARD_CUBIC_METER => some fun a => a / (629 / 100)
  | .MEGA_WATT_DAYS, .GIGA_WATT_HOURS => some fun a => a * 24 / 1000
  | _, _ => none

/-- `Unit.to` (units.py:145-171): identity for the same unit, NotImplementedError when not registered. -/
def EUnit.to (u v : EUnit) : Except UErr (ℚ → ℚ) :=
  if u = v then .ok fun a => a
  else match registry u v with
    | some f => .ok f
    | none => .error .notImplemented

/-- `_type_handler` for lists (units.py:14-28): the converter is applied element-wise. -/
def convertList (f : ℚ → ℚ) (xs : List ℚ) : List ℚ := xs.map f

/-- `Unit.volume_to_rate` (units.py:173-188). -/
def EUnit.volumeToRate : EUnit → Except UErr EUnit
  | .STANDARD_CUBIC_METER => .ok .STANDARD_CUBIC_METER_PER_DAY
  | .MEGA_WATT_DAYS => .ok .MEGA_WATT
  | .TONS => .ok .TONS_PER_DAY
  | .KILO => .ok .KILO_PER_DAY
  | .LITRES => .ok .LITRES_PER_DAY
  | _ => .error .notImplemented

/-- `Unit.rate_to_volume` (units.py:190-205). -/
def EUnit.rateToVolume : EUnit → Except UErr EUnit
  | .STANDARD_CUBIC_METER_PER_DAY => .ok .STANDARD_CUBIC_METER
  | .MEGA_WATT => .ok .MEGA_WATT_DAYS
  | .TONS_PER_DAY => .ok .TONS
  | .KILO_PER_DAY => .ok .KILO
  | .LITRES_PER_DAY => .ok .LITRES
  | _ => .error .notImplemented

end Verif.Units
