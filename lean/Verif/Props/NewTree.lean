import Verif.Proofs.NewTree
import Verif.Props.Verkle

/-! # C80: the fan-outs for which a new Verkle tree can be used -/

set_option linter.unusedSectionVars false

namespace PoL.Props
open Spec Verkle

variable {G1 G2 GT : Type} [AddCommGroup G1] [Module Zr G1] [AddCommGroup G2] [Module Zr G2]
  [AddCommGroup GT] [Module Zr GT] [DecidableEq G1]

/-- C80: on a tree made by `NewVerkleTree` with a fan-out of at most 65533, writes with valid identifiers never
panic. -/
theorem C80_new_tree_writes_return [DecidableEq GT] {E : Curve G1 G2 GT} (hE : E.Lawful) {env : Env} (henv : env.Lawful) (α : Zr)
    (fanOut : UInt16) (hf : fanOut.toNat ≤ 65533) (id2Path : Str → Option (List ℕ)) {L : ℕ} (hL : 1 ≤ L)
    (hist : List (Str × ℤ)) (s : State) (hids : ValidIds id2Path fanOut.toNat L hist) :
    ∃ t' s', (newVerkleTree E α fanOut id2Path).puts E env hist s = some (t', s') :=
  C39_writes_return hE henv (newTree_of_newVerkleTree E α fanOut (by omega) id2Path) hL hist s hids

/-- C80: with the two larger fan-outs `fanOut + 2` wraps around, and the first write panics whatever it is. -/
theorem C80_large_fanouts_panic (E : Curve G1 G2 GT) (env : Env) (α : Zr) (fanOut : UInt16) (hf : 65533 < fanOut.toNat)
    (id2Path : Str → Option (List ℕ)) (id : Str) (hp : id2Path id ≠ some []) (n : ℤ) (s : State) :
    (newVerkleTree E α fanOut id2Path).put E env id n s = none := by
  have hN : (newVerkleTree E α fanOut id2Path).PP.N ≠ fanOut.toNat + 2 := by
    change (fanOut + 2).toNat ≠ _
    have := UInt16.toNat_lt (fanOut + 2)
    omega
  unfold Tree.put Sparse.Tree.put
  cases h : id2Path id with
  | none =>
    have : ((newVerkleTree E α fanOut id2Path).sparse E env).id2Path id = none := h
    rw [this]
    rfl
  | some p =>
    have e : ((newVerkleTree E α fanOut id2Path).sparse E env).id2Path id = some p := h
    have hpn : p ≠ [] := by
      rintro rfl
      exact hp h
    have hput := putAt_first_none fanOut.toNat (updateInnerVertex E (newVerkleTree E α fanOut id2Path).PP env)
      (some (.amount n)) (fun key ds i s hl => by
        unfold updateInnerVertex
        rw [if_pos rfl]
        exact updateLayerAboveLeaves_first E _ env key ds i s (by rw [hl]; exact hN.symm)) p hpn [] [] s
    rw [e]
    simp only [Option.bind_eq_bind, Option.bind_some]
    change (((Sparse.putAt fanOut.toNat (updateInnerVertex E (newVerkleTree E α fanOut id2Path).PP env)
      (some (.amount n)) p [] (.mk [] none []) s).bind _).bind _) = none
    rw [hput]
    rfl

example : ∃ t' s', (newVerkleTree toyCurve 2 3 toyPath).puts toyCurve toyEnv toyHist ⟨fun _ => [], 0⟩ = some (t', s') :=
  C80_new_tree_writes_return toyCurve_lawful toyEnv_lawful 2 3 (by decide) toyPath (L := 3) (by norm_num) toyHist ⟨fun _ => [], 0⟩ toyHist_valid

example : (newVerkleTree toyCurve 2 65535 toyPath).put toyCurve toyEnv "012".toList 10 ⟨fun _ => [], 0⟩ = none :=
  C80_large_fanouts_panic toyCurve toyEnv 2 65535 (by decide) toyPath _ (by simp [toyPath]) 10 ⟨fun _ => [], 0⟩

end PoL.Props
