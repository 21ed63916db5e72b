/-!
# Retry delay

Models src/time.rs.
-/
namespace Verif

/-- The pause of `time::delay(attempts)` in milliseconds — src/time.rs:42-57. -/
def delayMs (attempts : Nat) : Nat :=
  match attempts with
  | 0 => 0
  | 1 => 1
  | 2 => 4
  | 3 => 8
  | 4 => 16
  | 5 => 32
  | 6 => 64
  | 7 => 128
  | 8 => 256
  | _ => 512

end Verif
