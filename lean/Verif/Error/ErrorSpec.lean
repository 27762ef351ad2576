import Verif.Error.Error

/-!
# What an error and its context are, independently of how they are stored
-/

set_option autoImplicit false

namespace Blazesym.Error

/-- The text of a piece of context. -/
def Cow.text : Cow → Bytes
  | .owned s => s
  | .borrowed s => s

/-- An error no context has been attached to. -/
inductive Root where
  | dwarf (text : Bytes) (backtrace : Option Bytes)
  | io (kind : IoKind) (text : Bytes) (sources : List Bytes) (backtrace : Option Bytes)
  | std (text : Bytes) (sources : List Bytes) (backtrace : Option Bytes)

/-- The error of the library a root error becomes. -/
def Root.error : Root → ErrorImpl
  | .dwarf text backtrace => .dwarf text backtrace
  | .io kind text sources backtrace => .io kind text sources backtrace
  | .std text sources backtrace => .std text sources backtrace

/-- What the root error and the errors behind it say, in order. -/
def Root.messages : Root → List Bytes
  | .dwarf text _ => [text]
  | .io _ text sources _ => text :: sources
  | .std text sources _ => text :: sources

/-- The stack trace taken when the root error came up. -/
def Root.trace : Root → Option Bytes
  | .dwarf _ b => b
  | .io _ _ _ b => b
  | .std _ _ b => b

/-- `Means io kind`: the operating system error kind `io` is reported as `kind`. -/
inductive Means : IoKind → ErrorKind → Prop
  | notFound : Means .notFound .notFound
  | permissionDenied : Means .permissionDenied .permissionDenied
  | alreadyExists : Means .alreadyExists .alreadyExists
  | wouldBlock : Means .wouldBlock .wouldBlock
  | invalidInput : Means .invalidInput .invalidInput
  | invalidData : Means .invalidData .invalidData
  | timedOut : Means .timedOut .timedOut
  | writeZero : Means .writeZero .writeZero
  | unsupported : Means .unsupported .unsupported
  | unexpectedEof : Means .unexpectedEof .unexpectedEof
  | outOfMemory : Means .outOfMemory .outOfMemory
  | rest (name : Bytes) : Means (.rest name) .other

/-- The error after attaching the pieces of context `cs`, the last one first: the first one ends up
outermost. -/
def attach (r : Root) : List Cow → ErrorImpl
  | [] => r.error
  | c :: cs => (attach r cs).layerContext c

end Blazesym.Error
