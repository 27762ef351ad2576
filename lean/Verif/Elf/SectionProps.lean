import Verif.Elf.ImageProps

/-! Property theorem C10 (sections that are not there). -/

set_option autoImplicit false

namespace Blazesym.Elf

/-- **C10** The contents of a section the file does not have cannot be read: the error says that the request is at
fault, not the file. -/
theorem C10_missing_section (c : Codec) (b : Backend) (idx : Nat) (l : List Shdr) (hl : parseShdrs b = .ok l)
    (h : l.length ≤ idx) : sectionDataRaw b idx = .error .invalidInput ∧ sectionData c b idx = .error .invalidInput := by
  have hs : sectionHdr b idx = .error .invalidInput := by
    simp only [sectionHdr, hl, bind, Except.bind, List.getElem?_eq_none h]
  constructor
  · simp only [sectionDataRaw, hs, bind, Except.bind]
  · simp only [sectionData, hs, bind, Except.bind]

/-- A file with no sections but the first ones. -/
example (c : Codec) : sectionDataRaw (.mem 4096 tinyElf) 77 = .error .invalidInput
    ∧ sectionData c (.mem 4096 tinyElf) 77 = .error .invalidInput := by
  cases h : parseShdrs (.mem 4096 tinyElf) with
  | error e =>
    have : (parseShdrs (.mem 4096 tinyElf)).toOption.isSome = true := by decide +kernel
    rw [h] at this; cases this
  | ok l =>
    have : (parseShdrs (.mem 4096 tinyElf)).toOption.map List.length = some 4 := by decide +kernel
    rw [h] at this
    exact C10_missing_section c _ _ l h (by have := Option.some.inj this; omega)

end Blazesym.Elf
