import Verif.Proofs.PolRoot
import Verif.Proofs.PolParams
import Verif.Props.Range
import Verif.Props.Sum
import Verif.Props.Poe

/-! For examples: a liability set of fan-out 3 over the toy curve. -/

namespace PoL
open Spec Pol Verkle Props

/-- Parameters that fit fan-out 3 and paths of length 3 exist. -/
theorem toy_fits : ∃ pp, Fits toyCurve 2 3 3 pp := by
  have hM : IsPadded (3 - 1) 2 := ⟨⟨1, by norm_num, by norm_num, by norm_num⟩, by norm_num, fun i _ h => by simpa using h⟩
  obtain ⟨pp, -, h⟩ := fits_of_parts toyCurve 2 3 3 2 (by norm_num) (by norm_num) (by norm_num) (by decide) 2 hM toyPath
  exact ⟨pp, h⟩

/-- A new set with the identifiers of `toyPath` exists. -/
theorem toy_set : ∃ ls : LiabilitySet Zr Zr Zr, NewSet toyCurve 2 3 3 ls ∧ ls.tree = toyTree := by
  obtain ⟨pp, h⟩ := toy_fits
  exact ⟨⟨toyTree, pp, [], ⟨fun _ => [], 0⟩⟩, ⟨toyTree_new, h, rfl⟩, rfl⟩

/-- For examples: the scalars drawn by one run of `ProveLiability`. -/
def toyRand : ProveRand where
  range i := ⟨List.replicate 4 5, (i : Zr), 6, 7, List.replicate 256 8, List.replicate 252 9, 10, 11⟩
  sum := ⟨[5, 6, 7, 8], 9⟩
  eq := ⟨[(1, 2, 3), (4, 5, 6)], 7, 8⟩

theorem toyRand_sized : RandSized 3 3 toyRand where
  range _ _ := ⟨List.length_replicate, List.length_replicate, List.length_replicate⟩
  sum := rfl
  eq := ⟨⟨1, by norm_num, by norm_num, rfl⟩, by decide, fun i _ h => h⟩

theorem toy_challenges (ls : LiabilitySet Zr Zr Zr) (rnd : ProveRand) (id : Str) :
    NonzeroChallenges toyCurve toyEnv ls rnd id where
  range _ _ _ v rp ipaPP _ _ _ := toy_rangeChallenges_ne _ v.V rp ipaPP
  proof _ _ _ := ⟨toy_sum_challenges _ _, toy_poe_challenges _ _⟩

theorem toy_intToZr_ten : intToZr 10 ≠ 0 := by
  have := natCast_ne_zero_of_lt (n := 10) (by decide) (by unfold order; decide)
  unfold intToZr; exact_mod_cast this

end PoL
