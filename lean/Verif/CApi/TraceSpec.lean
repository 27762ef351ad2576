import Verif.CApi.Trace
import Verif.Util.TextSpec

/-! # What C programs see of traces (independent of the writer) -/

set_option autoImplicit false

namespace Blazesym.Spec.Trace
open Blazesym.CApi.Trace (Level Op Seen)

/-- The complete lines of a text, with their newlines. -/
def completeLines (text : Bytes) : List Bytes := ((fields (· == 10) text).dropLast).map fun l => l ++ [10]

/-- What is left after the last newline. -/
def incomplete (text : Bytes) : Bytes := ((fields (· == 10) text).getLast?).getD []

/-- What a C program sees of a text that ends with a NUL: nothing after the first NUL. -/
def visible (text : Bytes) : Bytes := text.takeWhile (fun b => b != 0)

/-- What is reported at a level: `TRACE` (0, and unknown ones) everything, `DEBUG` (1), `INFO` (2) and `WARN` (3) what
is at least as severe. -/
inductive Reports : UInt8 → Level → Prop where
  | error (lvl : UInt8) : Reports lvl .error
  | warn (lvl : UInt8) : Reports lvl .warn
  | info (lvl : UInt8) (h : lvl ≠ 3) : Reports lvl .info
  | debug (lvl : UInt8) (h : lvl ≠ 3) (h2 : lvl ≠ 2) : Reports lvl .debug
  | trace (lvl : UInt8) (h : lvl = 0 ∨ 3 < lvl) : Reports lvl .trace

/-- What a program sees while tracing with a level and a callback: every complete line of the events that are
reported, and that further requests to trace are refused. -/
inductive Traced (lvl : UInt8) (cb : Nat) : List Op → List Seen → Prop where
  | nil : Traced lvl cb [] []
  | again (lvl' : UInt8) (cb' : Nat) (ops : List Op) (seen : List Seen) (h : Traced lvl cb ops seen) :
      Traced lvl cb (.trace lvl' cb' :: ops) (.code (-17) :: seen)
  | reported (level : Level) (parts : List Bytes) (ops : List Op) (seen : List Seen) (hl : Reports lvl level)
      (h : Traced lvl cb ops seen) :
      Traced lvl cb (.event level parts :: ops)
        ((completeLines parts.flatten).map (fun l => .line cb (visible l)) ++ seen)
  | ignored (level : Level) (parts : List Bytes) (ops : List Op) (seen : List Seen) (hl : ¬ Reports lvl level)
      (h : Traced lvl cb ops seen) : Traced lvl cb (.event level parts :: ops) seen

end Blazesym.Spec.Trace
