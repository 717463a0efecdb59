import Verif.Model.Common

/-!
# `sparse/tree.go:131-239`: from identifiers to paths

A path component (`uint16`) is a natural number here; the conversion `uint16(…)` is written `% 65536`.
In this file `none` means that the Go function panics or never returns; unbounded loops are least fixed
points (`partial_fixpoint`), so a loop that never returns is `none`.
-/

namespace PoL

variable {G1 G2 GT : Type} [AddCommGroup G1] [Module Zr G1] [AddCommGroup G2] [Module Zr G2]
  [AddCommGroup GT] [Module Zr GT]

/-- The value of a decimal digit. -/
def decDigit (c : Char) : Option ℕ :=
  if '0' ≤ c ∧ c ≤ '9' then some (c.toNat - 48) else none

/-- The value of a hexadecimal digit, in either case. -/
def hexDigit (c : Char) : Option ℕ :=
  if '0' ≤ c ∧ c ≤ '9' then some (c.toNat - 48)
  else if 'a' ≤ c ∧ c ≤ 'f' then some (c.toNat - 87)
  else if 'A' ≤ c ∧ c ≤ 'F' then some (c.toNat - 55)
  else none

/-- Value of a non-empty string of digits, most significant first; `none` on any other character. -/
def parseDigits (digit : Char → Option ℕ) (base : ℕ) : Str → Option ℕ
  | [] => none
  | s => s.foldlM (fun acc c => do return acc * base + (← digit c)) 0

/-- A number with an optional sign, as read by `strconv.ParseInt` (given base 10) and
`(*big.Int).SetString` (given base 16); neither accepts prefixes or underscores for an explicit base. -/
def parseSigned (digit : Char → Option ℕ) (base : ℕ) (s : Str) : Option ℤ :=
  match s with
  | '+' :: t => do return ((← parseDigits digit base t : ℕ) : ℤ)
  | '-' :: t => do return -((← parseDigits digit base t : ℕ) : ℤ)
  | t => do return ((← parseDigits digit base t : ℕ) : ℤ)

/-- `strconv.ParseInt(s, 10, 32)`: `none` for its error, also when the value does not fit 32 bits. -/
def parseInt32 (s : Str) : Option ℤ := do
  let n ← parseSigned decDigit 10 s
  if -2147483648 ≤ n ∧ n ≤ 2147483647 then return n else none

/-- The loop at `sparse/tree.go:147-150`; division by zero panics. -/
def digitsLoop (fanout : ℕ) (num : ℤ) : Option (List ℕ) :=
  if num > 0 then
    if fanout = 0 then none else do
    let rest ← digitsLoop fanout (num / (fanout : ℤ))
    return (num % (fanout : ℤ)).toNat % 65536 :: rest
  else some []
partial_fixpoint

/-- The loop of `DigitPathLen` (`sparse/tree.go:167-173`). -/
def digitPathLenLoop (fanout : ℕ) (pathLen : ℕ) : Option ℕ :=
  if fanout ^ pathLen > 10 ^ 9 then some pathLen
  else digitPathLenLoop fanout (pathLen + 1)
partial_fixpoint

/-- `sparse/tree.go:161-174` `DigitPathLen`. -/
def digitPathLen (fanout : UInt16) : Option ℕ := digitPathLenLoop fanout.toNat 1

/-- The function returned by `DigitPath` (`sparse/tree.go:136-158`).  The length is that of the byte
string in the code and that of the character string here; they differ only for strings with non-ASCII
characters, on which both panic. -/
def digitPathFn (fanout : UInt16) (s : Str) : Option (List ℕ) :=
  if s.length ≠ 9 then none
  else do
    let num ← parseInt32 s
    let res ← digitsLoop fanout.toNat num
    let pathLen ← digitPathLen fanout
    return if res.length ≠ pathLen then res ++ [0] else res

/-- `sparse/tree.go:131-159` `DigitPath`; `fanout + 1` is computed in 16 bits. -/
def digitPath (fanout : UInt16) : Option (Str → Option (List ℕ)) := do
  if ← isPowerOfTwo (fanout + 1) then return digitPathFn fanout else none

/-- `sparse/tree.go:176-192` `ExpectedHexPathLengthByFanOut`. -/
def expectedHexPathLength (fanout : ℕ) : Option ℕ :=
  match fanout with
  | 3 => some 162
  | 7 => some 91
  | 15 => some 66
  | 31 => some 52
  | 63 => some 43
  | 127 => some 37
  | 255 => some 32
  | 511 => some 29
  | 1023 => some 26
  | 2047 => some 24
  | 4095 => some 22
  | 8191 => some 20
  | 16383 => some 19
  | _ => none

/-- One character of `hex.EncodeToString`. -/
def hexChar (n : ℕ) : Char := "0123456789abcdef".toList.getD n '0'

/-- `hex.EncodeToString`. -/
def hexEncode (b : Bytes) : Str := b.flatMap fun x => [hexChar (x.toNat / 16), hexChar (x.toNat % 16)]

/-- `sparse/tree.go:217-221` `hash`. -/
def hashId (E : Curve G1 G2 GT) (s : Str) : Str := hexEncode (E.sha256 (strBytes (String.ofList s)))

/-- The loop at `sparse/tree.go:233-236`: `big.Int` `Mod` and `Div` are Euclidean, like `%` and `/` on
`ℤ` in Lean. -/
def bigDigitsLoop (fanOut : ℕ) (n : ℤ) : Option (List ℕ) :=
  if n ≠ 0 then
    if fanOut = 0 then none else do
    let rest ← bigDigitsLoop fanOut (n / (fanOut : ℤ))
    return (n % (fanOut : ℤ)).toNat % 65536 :: rest
  else some []
partial_fixpoint

/-- `sparse/tree.go:223-239` `convertPathWithFanout`. -/
def convertPathWithFanout (s : Str) (fanOut : UInt16) : Option (List ℕ) := do
  let n ← parseSigned hexDigit 16 s
  bigDigitsLoop fanOut.toNat n

/-- The loop at `sparse/tree.go:207-213`. -/
def hexPathLoop (E : Curve G1 G2 GT) (fanout : UInt16) (expectedPathLen : ℕ) (s : Str) : Option (List ℕ) := do
  let path ← convertPathWithFanout s fanout
  if path.length = expectedPathLen then return path
  else hexPathLoop E fanout expectedPathLen (hashId E s)
partial_fixpoint

/-- `sparse/tree.go:194-215` `HexId2PathForFanOut`. -/
def hexId2Path (E : Curve G1 G2 GT) (fanout : UInt16) : Option (Str → Option (List ℕ)) := do
  if ← isPowerOfTwo (fanout + 1) then
    let expectedPathLen ← expectedHexPathLength fanout.toNat
    return hexPathLoop E fanout expectedPathLen
  else none

end PoL
