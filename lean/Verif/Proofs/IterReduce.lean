import Verif.Proofs.InnerProd
import Verif.Spec.Multilinear
import Verif.Model.Range

/-!
# Helper lemmas about the iterated reduction (`bp/ir.go`)
-/

set_option linter.unusedSectionVars false

namespace PoL

theorem isPowerOfTwoLoop_pow (k : ℕ) : isPowerOfTwoLoop (2 ^ k) = some true := by
  induction k with
  | zero => rw [isPowerOfTwoLoop]; simp
  | succ k ih =>
    have h1 : 2 ^ (k + 1) % 2 = 0 := by rw [pow_succ]; omega
    have h2 : 2 ^ (k + 1) / 2 = 2 ^ k := by rw [pow_succ]; omega
    rw [isPowerOfTwoLoop, h1, h2]
    simpa using ih

theorem isPowerOfTwo_pow (k : ℕ) (h1 : 1 ≤ k) (h2 : k ≤ 15) :
    isPowerOfTwo (UInt16.ofNat (2 ^ k)) = some true := by
  have hlt : 2 ^ k < 2 ^ 16 := Nat.pow_lt_pow_right (by norm_num) (by omega)
  have hto : (UInt16.ofNat (2 ^ k)).toNat = 2 ^ k := by
    rw [UInt16.toNat_ofNat']; exact Nat.mod_eq_of_lt hlt
  rw [isPowerOfTwo, hto, isPowerOfTwoLoop_pow k]
  rw [if_neg]
  intro h
  have := congrArg UInt16.toNat h
  rw [hto] at this
  have h3 : 2 ^ 1 ≤ 2 ^ k := Nat.pow_le_pow_right (by norm_num) h1
  have h4 : (1 : UInt16).toNat = 1 := rfl
  omega

namespace BP

variable {G1 G2 GT : Type} [AddCommGroup G1] [Module Zr G1] [AddCommGroup G2] [Module Zr G2]
  [AddCommGroup GT] [Module Zr GT]

/-- All products of subsets of the challenges; the first challenge belongs to the upper half. -/
def monomials : List Zr → List Zr
  | [] => [1]
  | x :: xs => monomials xs ++ Vec.mul (monomials xs) x

theorem monomials_length : ∀ xs : List Zr, (monomials xs).length = 2 ^ xs.length
  | [] => rfl
  | x :: xs => by simp [monomials, monomials_length xs, pow_succ]; omega

theorem Vec_mul_one (v : List Zr) : Vec.mul v 1 = v := by simp [Vec.mul]
theorem Gv_mul_one (v : List G1) : Gv.mul v 1 = v := by simp [Gv.mul]

theorem dot_monomials {n : ℕ} {v : List Zr} (x : Zr) {ms : List Zr} (hv : v.length = 2 * n)
    (hm : ms.length = n) : dot v (ms ++ Vec.mul ms x) = dot (foldV 1 x n v) ms := by
  conv_lhs => rw [← List.take_append_drop n v]
  rw [dot_append _ _ _ _ (by simp [hv, hm]; omega), foldV, dot_add_left _ _ _ (by simp [hv]; omega),
    Vec.dot_mul, Vec.dot_mul, one_smul, dot_comm (v.drop n) (Vec.mul ms x), Vec.dot_mul, dot_comm ms]

theorem bitMonomial_append (x : Zr) : ∀ (r : List Zr) (i : ℕ),
    bitMonomial (r ++ [x]) i = bitMonomial r (i % 2 ^ r.length)
      * (if i / 2 ^ r.length % 2 = 1 then x else 1)
  | [], i => by simp [bitMonomial]
  | y :: r, i => by
    rw [List.cons_append, bitMonomial, bitMonomial, bitMonomial_append x r (i / 2), List.length_cons,
      pow_succ, mul_comm (2 ^ r.length) 2]
    rw [Nat.mod_mul_right_mod, Nat.mod_mul_right_div_self, ← Nat.div_div_eq_div_mul]
    ring

theorem bitMonomial_mod : ∀ (r : List Zr) (i : ℕ), bitMonomial r (i % 2 ^ r.length) = bitMonomial r i
  | [], i => by simp [bitMonomial]
  | y :: r, i => by
    rw [bitMonomial, bitMonomial, List.length_cons, pow_succ, mul_comm (2 ^ r.length) 2,
      Nat.mod_mul_right_mod, Nat.mod_mul_right_div_self, bitMonomial_mod r]

theorem monomials_eq : ∀ (xs : List Zr),
    monomials xs = (List.range (2 ^ xs.length)).map (bitMonomial xs.reverse)
  | [] => by simp [monomials, bitMonomial]
  | x :: xs => by
    apply List.ext_getElem (by simp [monomials_length])
    intro i h1 h2
    have hi : i < 2 ^ xs.length * 2 := by rw [monomials_length, List.length_cons, pow_succ] at h1; exact h1
    rw [List.getElem_map, List.getElem_range, List.reverse_cons, bitMonomial_append]
    simp only [monomials, List.length_reverse]
    by_cases hlt : i < 2 ^ xs.length
    · rw [List.getElem_append_left (by rw [monomials_length]; exact hlt), Nat.div_eq_of_lt hlt,
        Nat.mod_eq_of_lt hlt]
      simp [monomials_eq xs]
    · have hge : 2 ^ xs.length ≤ i := by omega
      have hdiv : i / 2 ^ xs.length = 1 := by
        rw [Nat.div_eq_iff (by positivity)]; omega
      have hmod : i % 2 ^ xs.length = i - 2 ^ xs.length := by
        rw [Nat.mod_eq_sub_mod hge, Nat.mod_eq_of_lt (by omega)]
      rw [List.getElem_append_right (by rw [monomials_length]; exact hge), hdiv, hmod]
      simp [Vec.mul, monomials_eq xs]

theorem multilinear_eq {v xs : List Zr} (h : v.length = 2 ^ xs.length) :
    multilinear v xs.reverse = dot v (monomials xs) := by
  rw [multilinear, dot, monomials_eq]
  congr 1
  apply List.ext_getElem (by simp [h])
  intro i h1 h2
  simp

variable [DecidableEq G1]

theorem iterReduceLoop_step (E : Curve G1 G2 GT) (digest : Bytes) (n : ℕ) (hn : 0 < n) (G : List G1)
    (v : List Zr) (V : G1) (Δ : List (G1 × G1 × G1)) (xs : List Zr) (hG : G.length = 2 * n)
    (hv : v.length = 2 * n) (x : Zr)
    (hx : irChallenge E digest (dot (v.drop n) (G.take n)) (dot (v.take n) (G.drop n)) V = some x) :
    iterReduceLoop E digest n G v V Δ xs = iterReduceLoop E digest (n / 2) (foldG 1 x⁻¹ n G)
      (foldV 1 x n v) (dot (foldV 1 x n v) (foldG 1 x⁻¹ n G))
      (Δ ++ [(dot (v.drop n) (G.take n), dot (v.take n) (G.drop n),
        dot (foldV 1 x n v) (foldG 1 x⁻¹ n G))]) (xs ++ [x]) := by
  have hGL : (G.take n).length = n := by simp [hG]; omega
  have hGR : (G.drop n).length = n := by simp [hG]; omega
  have hvL : (v.take n).length = n := by simp [hv]; omega
  have hvR : (v.drop n).length = n := by simp [hv]; omega
  have hne : ∀ {l : List G1}, l.length = n → l ≠ [] := by rintro l h rfl; simp at h; omega
  conv_lhs => unfold iterReduceLoop
  rw [dif_neg (by omega), sliceTo_eq (by omega), sliceFrom_eq (by omega), sliceTo_eq (by omega),
    sliceFrom_eq (by omega)]
  simp only [Option.bind_eq_bind, Option.bind_some]
  have e1 := Gv.mulV_sum (g := G.take n) (v := v.drop n) (by omega) (hne hGL)
  have e2 := Gv.mulV_sum (g := G.drop n) (v := v.take n) (by omega) (hne hGR)
  have hfG : Gv.add (G.take n) (Gv.mul (G.drop n) x⁻¹) = some (foldG 1 x⁻¹ n G) := by
    rw [Gv.add_eq (by simp [hG]; omega), foldG, Gv_mul_one]
  have hfV : Vec.add (v.take n) (Vec.mul (v.drop n) x) = some (foldV 1 x n v) := by
    rw [Vec.add_eq (by simp [hv]; omega), foldV, Vec_mul_one]
  have e3 := Gv.mulV_sum (g := foldG 1 x⁻¹ n G) (v := foldV 1 x n v)
    (by rw [foldG_length hG, foldV_length hv]) (hne (foldG_length hG))
  simp only [Option.bind_eq_bind] at e1 e2 e3
  rw [← Option.bind_assoc, e1, Option.bind_some, ← Option.bind_assoc, e2, Option.bind_some, hx,
    Option.bind_some, hfG, Option.bind_some, hfV, Option.bind_some, ← Option.bind_assoc, e3,
    Option.bind_some]

theorem iterVerifyLoop_step (E : Curve G1 G2 GT) (digest : Bytes) (vFinal : Zr) (n : ℕ) (hn : 0 < n)
    (G : List G1) (hG : G.length = 2 * n) (prevV A B V : G1) (Δ : List (G1 × G1 × G1))
    (fV : Option G1) (xs : List Zr) (x : Zr) (hx : irChallenge E digest A B prevV = some x) :
    iterVerifyLoop E digest vFinal n G prevV ((A, B, V) :: Δ) fV xs
      = if V = prevV + x • A + x⁻¹ • B then
          iterVerifyLoop E digest vFinal (n / 2) (foldG 1 x⁻¹ n G) V Δ (some V) (xs ++ [x])
        else some none := by
  rw [iterVerifyLoop, dif_neg (by omega)]
  simp only [hx, Option.bind_eq_bind, Option.bind_some]
  have hs : x • A + x⁻¹ • B + prevV = prevV + x • A + x⁻¹ • B := by abel
  rw [hs]
  by_cases h : V = prevV + x • A + x⁻¹ • B
  · rw [if_neg (by simpa using h), if_pos h, sliceTo_eq (by omega), sliceFrom_eq (by omega)]
    simp only [Option.bind_some]
    rw [Gv.add_eq (by simp [hG]; omega), Option.bind_some, foldG, Gv_mul_one]
  · rw [if_pos h, if_neg h]; rfl

theorem irChallenge_isSome (E : Curve G1 G2 GT) (hE : E.Lawful) (digest : Bytes) (A B V : G1) :
    ∃ x, irChallenge E digest A B V = some x := fieldElementFromBytes_isSome (hE.sha_len _)

/-- One round of the reduction preserves the commitment equation. -/
theorem ir_identity {x : Zr} (hx : x ≠ 0) {n : ℕ} {v : List Zr} {G : List G1} (hv : v.length = 2 * n)
    (hG : G.length = 2 * n) :
    dot (foldV 1 x n v) (foldG 1 x⁻¹ n G)
      = dot v G + x • dot (v.drop n) (G.take n) + x⁻¹ • dot (v.take n) (G.drop n) := by
  rw [dot_fold hv hG, dot_take_drop n v G, mul_inv_cancel₀ hx]
  module

theorem iterReduceLoop_complete (E : Curve G1 G2 GT) (hE : E.Lawful) (digest : Bytes) (j : ℕ) :
    ∀ (G : List G1) (v : List Zr) (V : G1) (Δ : List (G1 × G1 × G1)) (xs : List Zr),
      G.length = 2 ^ j → v.length = 2 ^ j →
      ∃ Δ' xs' u, iterReduceLoop E digest (2 ^ j / 2) G v V Δ xs = some (Δ ++ Δ', xs ++ xs', u) ∧
        Δ'.length = j ∧ xs'.length = j ∧ u = dot v (monomials xs') ∧
        ((∀ x ∈ xs', x ≠ 0) → V = dot v G → ∀ fV ys, (j = 0 → fV = some V) →
          iterVerifyLoop E digest u (2 ^ j / 2) G V Δ' fV ys = some (some (ys ++ xs', u))) := by
  induction j with
  | zero =>
    intro G v V Δ xs hG hv
    obtain ⟨g0, rfl⟩ := List.length_eq_one_iff.1 hG
    obtain ⟨v0, rfl⟩ := List.length_eq_one_iff.1 hv
    refine ⟨[], [], v0, ?_, rfl, rfl, by simp [monomials], ?_⟩
    · rw [iterReduceLoop]; simp
    · intro _ hV fV ys hf
      rw [hf rfl, iterVerifyLoop]
      simp [hV]
  | succ j ih =>
    intro G v V Δ xs hG hv
    have hpos : 0 < 2 ^ j := by positivity
    have h2 : 2 ^ (j + 1) / 2 = 2 ^ j := by rw [pow_succ]; omega
    rw [pow_succ, mul_comm] at hG hv
    obtain ⟨x, hx⟩ := irChallenge_isSome E hE digest (dot (v.drop (2 ^ j)) (G.take (2 ^ j)))
      (dot (v.take (2 ^ j)) (G.drop (2 ^ j))) V
    obtain ⟨Δ', xs', u, h3, h4, h5, h6, h7⟩ := ih (foldG 1 x⁻¹ (2 ^ j) G) (foldV 1 x (2 ^ j) v)
      (dot (foldV 1 x (2 ^ j) v) (foldG 1 x⁻¹ (2 ^ j) G))
      (Δ ++ [(dot (v.drop (2 ^ j)) (G.take (2 ^ j)), dot (v.take (2 ^ j)) (G.drop (2 ^ j)),
        dot (foldV 1 x (2 ^ j) v) (foldG 1 x⁻¹ (2 ^ j) G))]) (xs ++ [x])
      (foldG_length hG) (foldV_length hv)
    refine ⟨(dot (v.drop (2 ^ j)) (G.take (2 ^ j)), dot (v.take (2 ^ j)) (G.drop (2 ^ j)),
        dot (foldV 1 x (2 ^ j) v) (foldG 1 x⁻¹ (2 ^ j) G)) :: Δ', x :: xs', u, ?_, by simp [h4], by simp [h5], ?_, ?_⟩
    · rw [h2, iterReduceLoop_step E digest (2 ^ j) hpos G v V Δ xs hG hv x hx, h3]
      simp
    · rw [monomials, dot_monomials x hv (by rw [monomials_length, h5]), h6]
    · intro hne hV fV ys _
      have hx0 : x ≠ 0 := hne x (by simp)
      rw [h2, iterVerifyLoop_step E digest u (2 ^ j) hpos G hG V _ _ _ Δ' fV ys x hx,
        if_pos (by rw [ir_identity hx0 hv hG, hV]),
        h7 (fun y hy => hne y (by simp [hy])) rfl _ _ (fun _ => rfl)]
      simp

end BP
end PoL
