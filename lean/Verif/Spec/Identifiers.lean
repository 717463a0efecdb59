import Mathlib.Data.Nat.Digits.Lemmas

/-! What identifiers denote, stated without reference to the model. -/

namespace PoL.Spec

/-- A string of decimal digits. -/
def IsDecimal (s : List Char) : Prop := ∀ c ∈ s, c.isDigit = true

/-- The number a decimal string denotes. -/
def decimalValue (s : List Char) : ℕ := Nat.ofDigits 10 (s.reverse.map fun c => c.toNat - '0'.toNat)

/-- A lower- or upper-case hexadecimal digit. -/
def isHexDigit (c : Char) : Bool :=
  c.isDigit || ('a' ≤ c && c ≤ 'f') || ('A' ≤ c && c ≤ 'F')

/-- The value of a hexadecimal digit. -/
def hexDigitValue (c : Char) : ℕ :=
  if c.isDigit then c.toNat - '0'.toNat
  else if c.isLower then c.toNat - 'a'.toNat + 10
  else c.toNat - 'A'.toNat + 10

/-- A string of hexadecimal digits. -/
def IsHex (s : List Char) : Prop := ∀ c ∈ s, isHexDigit c = true

/-- The number a hexadecimal string denotes. -/
def hexValue (s : List Char) : ℕ := Nat.ofDigits 16 (s.reverse.map hexDigitValue)

/-- An identifier of the sparse tree (`pol/pol.go:23`): 64 hexadecimal characters. -/
def IsSparseId (s : List Char) : Prop := s.length = 64 ∧ IsHex s

/-- An identifier of the dense tree (`pol/pol.go:25`): nine decimal digits. -/
def IsDenseId (s : List Char) : Prop := s.length = 9 ∧ IsDecimal s

end PoL.Spec
