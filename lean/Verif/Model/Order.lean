import Verif.Model.Telemetry
/-! # The order of points -/
namespace Verif
section
variable {F : Type} [F64 F]

/-- `impl PartialOrd for Telemetry` — src/metric/telemetry.rs:233-245. -/
def Telemetry.partialCmp (self other : Telemetry F) : Option Ordering :=
  match cmpStr self.name other.name with
  | .eq => match compare self.timestamp other.timestamp with
    | .eq => some (cmpTagmap self.tags other.tags)
    | o => some o
  | o => some o

end
end Verif
