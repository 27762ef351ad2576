import Verif.CApi.Codes
import Verif.CApi.CodesSpec

/-!
# C47: the codes and texts of the C interface
-/

set_option autoImplicit false

namespace Blazesym.CApi

open Blazesym.Error Blazesym.Symbolize

/-- **C47**.  Every kind of error has the code the C header gives it. -/
theorem C47_header (k : ErrorKind) : headerErr.lookup k = some (errCode k) := by
  cases k <;> decide +kernel

/-- **C47**.  Error codes are negative 16 bit numbers, so none of them means success. -/
theorem C47_range (k : ErrorKind) : -32768 ≤ errCode k ∧ errCode k < 0 := by
  cases k <;> decide

/-- **C47**.  Different kinds have different codes. -/
theorem C47_distinct (k k' : ErrorKind) (h : errCode k = errCode k') : k = k' := by
  cases k <;> cases k' <;> first | rfl | (exact absurd h (by decide))

/-- **C47**.  The text of the code of a kind is the text of the kind, NUL-terminated. -/
theorem C47_text (k : ErrorKind) : IsCStr (errStr (errCode k)) k.display := by
  cases k <;> decide +kernel

theorem ite_ne {p : Prop} [Decidable p] {a b c : Bytes} (ha : a ≠ c) (hb : b ≠ c) : (if p then a else b) ≠ c := by
  split
  · exact ha
  · exact hb

/-- **C47**.  The text is `success` for code zero and for no other code, of whatever value. -/
theorem C47_success (code : Int) : errStr code = ascii "success" ++ [0] ↔ code = 0 := by
  constructor
  · intro h
    by_contra hne
    rw [errStr, if_neg hne] at h
    revert h
    repeat' refine ite_ne ?_ ?_
    all_goals decide +kernel
  · rintro rfl; rfl

/-- **C47**.  A code that belongs to no kind has the text of an unclassified error. -/
theorem C47_unknown (code : Int) (h0 : code ≠ 0) (h : ∀ (k : ErrorKind), code ≠ errCode k) :
    errStr code = errStr (errCode .other) := by
  have h1 := h .notFound
  have h2 := h .permissionDenied
  have h3 := h .alreadyExists
  have h4 := h .wouldBlock
  have h5 := h .invalidInput
  have h6 := h .invalidData
  have h7 := h .invalidDwarf
  have h8 := h .timedOut
  have h9 := h .writeZero
  have h10 := h .unsupported
  have h11 := h .unexpectedEof
  have h12 := h .outOfMemory
  simp only [errCode] at h1 h2 h3 h4 h5 h6 h7 h8 h9 h10 h11 h12
  unfold errStr
  simp only [h0, h1, h2, h3, h4, h5, h6, h7, h8, h9, h10, h11, h12, if_false]
  rfl

/-- Such codes exist. -/
example : (5 : Int) ≠ 0 ∧ ∀ (k : ErrorKind), (5 : Int) ≠ errCode k := by
  refine ⟨by decide, fun k => ?_⟩
  cases k <;> decide

/-- **C47**.  Different kinds have different texts. -/
theorem C47_texts_distinct (k k' : ErrorKind) (h : errStr (errCode k) = errStr (errCode k')) : k = k' := by
  cases k <;> cases k' <;> first | rfl | (exact absurd h (by decide +kernel))

/-- **C47**.  Every reason has the code the C header gives it. -/
theorem C47_reason_header (r : Reason) :
    headerSymbolizeReason.lookup r = some (symbolizeReason r)
      ∧ headerNormalizeReason.lookup r = some (normalizeReason r) := by
  cases r <;> decide +kernel

/-- **C47**.  A reason is never reported as success, different reasons have different codes, and codes
are bytes. -/
theorem C47_reason_distinct (r r' : Reason) :
    0 < symbolizeReason r ∧ symbolizeReason r < 256 ∧ normalizeReason r < 256
      ∧ (symbolizeReason r = symbolizeReason r' → r = r') ∧ (normalizeReason r = normalizeReason r' → r = r') := by
  cases r <;> cases r' <;> decide

/-- **C47**.  The text of a reason's code is the same for symbolization and normalization, is
NUL-terminated, and tells reasons apart. -/
theorem C47_reason_text (r r' : Reason) :
    symbolizeReasonStr (symbolizeReason r) = reasonBytes r
      ∧ normalizeReasonStr (normalizeReason r) = reasonBytes r
      ∧ IsCStr (reasonBytes r) (reasonBytes r).dropLast
      ∧ (reasonBytes r = reasonBytes r' → r = r') := by
  cases r <;> cases r' <;> decide +kernel

/-- **C47**.  Codes that are no reason's are named as such. -/
theorem C47_reason_unknown (code : Nat) :
    ((∀ (r : Reason), code ≠ symbolizeReason r) → code ≠ 0 →
        symbolizeReasonStr code = ascii "unknown reason" ++ [0])
      ∧ ((∀ (r : Reason), code ≠ normalizeReason r) → normalizeReasonStr code = ascii "unknown reason" ++ [0])
      ∧ (symbolizeReasonStr code = ascii "success" ++ [0] ↔ code = 0) := by
  refine ⟨fun h h0 => ?_, fun h => ?_, fun h => ?_, ?_⟩
  · have h1 := h .unmapped
    have h2 := h .invalidFileOffset
    have h3 := h .missingComponent
    have h4 := h .missingSyms
    have h5 := h .unsupported
    have h6 := h .unknownAddr
    have h7 := h .ignoredError
    simp only [symbolizeReason] at h1 h2 h3 h4 h5 h6 h7
    unfold symbolizeReasonStr
    simp only [h0, h1, h2, h3, h4, h5, h6, h7, if_false]
  · have h1 := h .unmapped
    have h2 := h .invalidFileOffset
    have h3 := h .missingComponent
    have h4 := h .missingSyms
    have h5 := h .unsupported
    have h6 := h .unknownAddr
    have h7 := h .ignoredError
    simp only [normalizeReason] at h1 h2 h3 h4 h5 h6 h7
    unfold normalizeReasonStr
    simp only [h1, h2, h3, h4, h5, h6, h7, if_false]
  · by_contra hne
    rw [symbolizeReasonStr, if_neg hne] at h
    revert h
    repeat' refine ite_ne ?_ ?_
    all_goals decide +kernel
  · rintro rfl; rfl

example : (∀ (r : Reason), 9 ≠ symbolizeReason r) ∧ (∀ (r : Reason), 6 ≠ normalizeReason r) := by
  constructor <;> intro r <;> cases r <;> decide

end Blazesym.CApi
