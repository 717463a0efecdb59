import Verif.Props.Paths
import Verif.Proofs.PathLengths

/-! # C79: the table of path lengths -/

set_option linter.unusedSectionVars false

namespace PoL.Props
open Spec

variable {G1 G2 GT : Type} [AddCommGroup G1] [Module Zr G1] [AddCommGroup G2] [Module Zr G2]
  [AddCommGroup GT] [Module Zr GT]

/-- C79: the tabulated length is the one that most 256-bit numbers have, and at least 43 percent have it. -/
theorem C79_most_frequent_length (f L : ℕ) (h : expectedHexPathLength f = some L) :
    (∀ n, withDigits f n ≤ withDigits f L) ∧ 43 * 2 ^ 256 ≤ 100 * withDigits f L := by
  unfold expectedHexPathLength at h
  split at h <;> simp only [Option.some.injEq, reduceCtorEq] at h <;> subst h <;>
    exact ⟨withDigits_le (by norm_num) (by norm_num) (by norm_num) (by norm_num),
      by rw [withDigits_eq (by norm_num) (by norm_num)]; norm_num⟩

/-- C79: an identifier is used as it is, without hashing, iff its value has that many digits. -/
theorem C79_without_hashing (E : Curve G1 G2 GT) (fanout : UInt16) (toPath : Str → Option (List ℕ))
    (h : hexId2Path E fanout = some toPath) (L : ℕ) (hL : expectedHexPathLength fanout.toNat = some L) (s : Str)
    (hs : IsSparseId s) : toPath s = some (fanout.toNat.digits (hexValue s)) ↔ (fanout.toNat.digits (hexValue s)).length = L := by
  obtain ⟨L', hL', e⟩ := (hexId2Path_eq_some_iff E fanout toPath).1 h
  rw [hL, Option.some.injEq] at hL'
  subst hL'
  obtain ⟨hf, hL1, -⟩ := expectedHexPathLength_ge_two _ _ hL
  constructor
  · intro hp
    have := (C28_paths_well_formed E fanout toPath h s _ hp).1
    rw [hL, Option.some.injEq] at this
    exact this.symm
  · intro hl
    rw [e, hexPathLoop_hex E fanout hf L s (sparseId_ne_nil s hs) hs.2, if_pos hl]

/-- For fan-out 7, a length of 92 would be met by fewer numbers. -/
example : withDigits 7 92 < withDigits 7 91 := by
  rw [withDigits_eq (by norm_num) (by norm_num), withDigits_eq (by norm_num) (by norm_num)]
  norm_num

end PoL.Props
