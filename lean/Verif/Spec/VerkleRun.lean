import Verif.Model.Verkle
import Verif.Spec.Liabilities
import Verif.Spec.Toy
import Mathlib.Data.List.FinRange

/-! The situation that the theorems on the Verkle tree are about. -/

namespace PoL.Spec
open Verkle

variable {G1 G2 GT : Type} [AddCommGroup G1] [Module Zr G1] [AddCommGroup G2] [Module Zr G2]
  [AddCommGroup GT] [Module Zr GT]

/-- A new tree of fan-out `F` with the parameters made from `α`. -/
structure NewTree (E : Curve G1 G2 GT) (α : Zr) (F : ℕ) (t : Tree G1 G2 GT) : Prop where
  pp : t.PP = PP.newPublicParams E α (F + 2)
  fanOut : t.fanOut = F
  root : t.root = none
  bound : F + 2 < 65536

/-- What a vertex with the contents of `x` has to commit to in `V`: values, sum, blinding factor. -/
def valuesOf (F : ℕ) (x : Vertex G1) : List Zr :=
  ((List.range F).map fun i => (x.values (UInt16.ofNat i)).getD 0) ++ [x.sum, x.blindingFactor]

/-- What it has to commit to in `W`: digests, two zeros. -/
def digestsOf (F : ℕ) (x : Vertex G1) : List Zr :=
  ((List.range F).map fun i => (x.digests (UInt16.ofNat i)).getD 0) ++ [0, 0]

/-- The number of writes below a vertex. -/
def writesBelow (h : List (List ℕ × ℤ)) (q : List ℕ) : ℕ := h.countP fun e => decide (q <+: e.1)

theorem newTree_of_newVerkleTree (E : Curve G1 G2 GT) (α : Zr) (fanOut : UInt16) (h : fanOut.toNat + 2 < 65536)
    (id2Path : Str → Option (List ℕ)) : NewTree E α fanOut.toNat (newVerkleTree E α fanOut id2Path) where
  pp := by
    have : (fanOut + 2).toNat = fanOut.toNat + 2 := by
      rw [UInt16.toNat_add]
      exact Nat.mod_eq_of_lt (by simpa using h)
    unfold newVerkleTree
    rw [this]
  fanOut := rfl
  root := rfl
  bound := h

/-- All keys, in increasing order. -/
def allKeys : List UInt16 := (List.finRange 65536).map fun i => UInt16.ofNat i.val

theorem allKeys_nodup : allKeys.Nodup := by
  unfold allKeys
  apply (List.nodup_finRange 65536).map
  intro i j h
  have h2 := congrArg UInt16.toNat h
  simp only [UInt16.toNat_ofNat'] at h2
  rw [Nat.mod_eq_of_lt (by have := i.isLt; omega), Nat.mod_eq_of_lt (by have := j.isLt; omega)] at h2
  exact Fin.ext h2

theorem mem_allKeys (k : UInt16) : k ∈ allKeys := by
  unfold allKeys
  rw [List.mem_map]
  exact ⟨⟨k.toNat, UInt16.toNat_lt k⟩, List.mem_finRange _, UInt16.ofNat_toNat⟩

attribute [irreducible] allKeys

/-- For examples: maps visited by increasing key, scalars drawn `5, 6, 7, …`. -/
def toyEnv : Env where
  rand n := ((n + 5 : ℕ) : Zr)
  orderDigests _ m := allKeys.filter fun k => (m k).isSome
  orderValues _ m := allKeys.filter fun k => (m k).isSome

theorem toyEnv_lawful : toyEnv.Lawful := by
  constructor
  · intro t m; exact allKeys_nodup.filter _
  · intro t m k
    exact ⟨fun h => (List.mem_filter.1 h).2, fun h => List.mem_filter.2 ⟨mem_allKeys k, h⟩⟩
  · intro t m; exact allKeys_nodup.filter _
  · intro t m k
    exact ⟨fun h => (List.mem_filter.1 h).2, fun h => List.mem_filter.2 ⟨mem_allKeys k, h⟩⟩

/-- For examples: fan-out 3, paths of length 3 made of the first three characters, `'0'`, `'1'` or `'2'`. -/
def toyPath (s : Str) : Option (List ℕ) := some (s.map fun ch => ch.toNat - 48)

/-- For examples: a tree of fan-out 3. -/
def toyTree : Tree Zr Zr Zr := newVerkleTree toyCurve 2 3 toyPath

theorem toyTree_new : NewTree toyCurve 2 3 toyTree := newTree_of_newVerkleTree toyCurve 2 3 (by decide) toyPath

/-- For examples: two writes under one identifier, one next to it, and one elsewhere. -/
def toyHist : List (Str × ℤ) :=
  [(['0', '1', '2'], 10), (['0', '1', '2'], 30), (['0', '1', '0'], 5), (['2', '2', '1'], 7)]

theorem toyTree_path (s : Str) : toyTree.id2Path s = some (s.map fun ch => ch.toNat - 48) := rfl

theorem toyHist_valid : ValidIds toyTree.id2Path 3 3 toyHist := by
  have h : ∀ e ∈ toyHist, (e.1.map fun ch => ch.toNat - 48).length = 3 ∧
      ∀ x ∈ e.1.map fun ch => ch.toNat - 48, x < 3 := by decide
  intro e he
  exact ⟨_, toyTree_path e.1, h e he⟩

end PoL.Spec
