import Verif.Proofs.RangeForge
import Verif.Proofs.RewindLiability
import Mathlib.Algebra.Order.Chebyshev
import Mathlib.Data.Fintype.BigOperators

/-!
# How often the dishonest prover of ranges finds other values
-/

namespace PoL.BP

open Finset

theorem foldV_one_getD (x : Zr) (n : ℕ) (c : List Zr) (hc : c.length = 2 * n) (i : ℕ) (hi : i < n) :
    (foldV 1 x n c).getD i 0 = c.getD i 0 + x * c.getD (n + i) 0 := by
  have h1 : i < c.length := by omega
  have h2 : n + i < c.length := by omega
  simp [foldV, Vec.mul, List.getD_eq_getElem?_getD, List.getElem?_zipWith, hi, h1, h2, mul_comm]

/-- A multilinear polynomial in `k` variables that is not zero has at most `k·(q-1)^(k-1)` zeros with non-zero
coordinates. -/
theorem zeros_le : ∀ (k : ℕ) (c : List Zr), c.length = 2 ^ k → (∃ i < 2 ^ k, c.getD i 0 ≠ 0) →
    #{xs ∈ challengeLists k | dot c (monomials xs) = 0} * (order - 1) ≤ k * (order - 1) ^ k
  | 0, c, hc, ⟨i, hi, h⟩ => by
    obtain ⟨c0, rfl⟩ := List.length_eq_one_iff.1 hc
    obtain rfl : i = 0 := by omega
    have h : c0 ≠ 0 := by simpa using h
    rw [Finset.card_eq_zero.2]
    · simp
    · rw [Finset.filter_eq_empty_iff]
      intro xs hxs
      rw [challengeLists, Finset.mem_singleton] at hxs
      subst hxs
      simpa [monomials, dot] using h
  | k + 1, c, hc, ⟨i, hi, h⟩ => by
    classical
    have hc2 : c.length = 2 * 2 ^ k := by rw [hc, pow_succ, mul_comm]
    rw [card_filter_challengeLists]
    have hstep : ∀ x : Zr, #{xs ∈ challengeLists k | dot c (monomials (x :: xs)) = 0}
        = #{xs ∈ challengeLists k | dot (foldV 1 x (2 ^ k) c) (monomials xs) = 0} := by
      intro x
      congr 1
      refine Finset.filter_congr fun xs hxs => ?_
      rw [mem_challengeLists] at hxs
      rw [monomials, dot_monomials (n := 2 ^ k) x hc2 (by rw [monomials_length, hxs.1])]
    -- at most one challenge folds `c` to zero
    obtain ⟨x₀, hx₀⟩ : ∃ x₀ : Zr, ∀ x, x ≠ x₀ → ∃ i < 2 ^ k, (foldV 1 x (2 ^ k) c).getD i 0 ≠ 0 := by
      by_cases hi' : i < 2 ^ k
      · by_cases hz : c.getD (2 ^ k + i) 0 = 0
        · refine ⟨0, fun x _ => ⟨i, hi', ?_⟩⟩
          rw [foldV_one_getD _ _ _ hc2 _ hi', hz, mul_zero, add_zero]
          exact h
        · refine ⟨-c.getD i 0 / c.getD (2 ^ k + i) 0, fun x hx => ⟨i, hi', ?_⟩⟩
          rw [foldV_one_getD _ _ _ hc2 _ hi']
          intro h0
          apply hx
          rw [eq_div_iff hz]
          linear_combination h0
      · have hj : i - 2 ^ k < 2 ^ k := by rw [pow_succ] at hi; omega
        have hz : c.getD (2 ^ k + (i - 2 ^ k)) 0 ≠ 0 := by rwa [Nat.add_sub_cancel' (by omega)]
        refine ⟨-c.getD (i - 2 ^ k) 0 / c.getD (2 ^ k + (i - 2 ^ k)) 0, fun x hx => ⟨i - 2 ^ k, hj, ?_⟩⟩
        rw [foldV_one_getD _ _ _ hc2 _ hj]
        intro h0
        apply hx
        rw [eq_div_iff hz]
        linear_combination h0
    have hb : ∀ x ∈ univ.erase (0 : Zr), #{xs ∈ challengeLists k | dot c (monomials (x :: xs)) = 0} * (order - 1)
        ≤ k * (order - 1) ^ k + if x = x₀ then (order - 1) ^ (k + 1) else 0 := by
      intro x _
      rw [hstep]
      split_ifs with hx
      · have := Finset.card_filter_le (challengeLists k) fun xs => dot (foldV 1 x (2 ^ k) c) (monomials xs) = 0
        rw [card_challengeLists] at this
        calc _ ≤ (order - 1) ^ k * (order - 1) := Nat.mul_le_mul_right _ this
          _ = (order - 1) ^ (k + 1) := (pow_succ _ _).symm
          _ ≤ _ := Nat.le_add_left _ _
      · rw [add_zero]
        exact zeros_le k _ (foldV_length hc2) (hx₀ x hx)
    rw [Finset.sum_mul]
    refine (Finset.sum_le_sum hb).trans ?_
    rw [Finset.sum_add_distrib, Finset.sum_const, Finset.card_erase_of_mem (Finset.mem_univ _), Finset.card_univ,
      ZMod.card, smul_eq_mul, Finset.sum_ite_eq']
    have : (if x₀ ∈ univ.erase (0 : Zr) then (order - 1) ^ (k + 1) else 0) ≤ (order - 1) ^ (k + 1) := by
      split_ifs
      · exact le_rfl
      · exact Nat.zero_le _
    calc _ ≤ (order - 1) * (k * (order - 1) ^ k) + (order - 1) ^ (k + 1) := Nat.add_le_add_left this _
      _ = (k + 1) * (order - 1) ^ (k + 1) := by ring

/-- If two elements of `Box` have the same image under at most a fraction `κ` of the maps, the images are large on
average. -/
theorem image_bound {α β γ : Type} [DecidableEq β] [DecidableEq γ] (S : Finset α) (Box : Finset β) (φ : α → β → γ) (κ : ℚ)
    (hκ : 0 ≤ κ) (hS : 0 < #S) (hBox : 0 < #Box)
    (h : ∀ b ∈ Box, ∀ b' ∈ Box, b ≠ b' → (#{s ∈ S | φ s b = φ s b'} : ℚ) ≤ κ * #S) :
    (#S : ℚ) / (1 / #Box + κ) ≤ ∑ s ∈ S, (#(Box.image (φ s)) : ℚ) := by
  classical
  have hBq : (0 : ℚ) < #Box := by exact_mod_cast hBox
  have hSq : (0 : ℚ) < #S := by exact_mod_cast hS
  -- pairs with the same image
  let C : α → ℚ := fun s => ∑ b ∈ Box, (#{b' ∈ Box | φ s b' = φ s b} : ℚ)
  have hCpos : ∀ s, 0 < C s := fun s => by
    refine Finset.sum_pos (fun b hb => ?_) (Finset.card_pos.1 hBox)
    have : 0 < #{b' ∈ Box | φ s b' = φ s b} := Finset.card_pos.2 ⟨b, by simp [hb]⟩
    exact_mod_cast this
  have hCS : ∀ s, (#Box : ℚ) ^ 2 / C s ≤ #(Box.image (φ s)) := fun s => by
    have e1 : (#Box : ℚ) = ∑ u ∈ Box.image (φ s), (#{b ∈ Box | φ s b = u} : ℚ) := by
      rw [← Nat.cast_sum, ← Finset.card_eq_sum_card_image]
    have e2 : C s = ∑ u ∈ Box.image (φ s), (#{b ∈ Box | φ s b = u} : ℚ) ^ 2 := by
      show ∑ b ∈ Box, (#{b' ∈ Box | φ s b' = φ s b} : ℚ) = _
      rw [← Finset.sum_fiberwise_of_maps_to (t := Box.image (φ s)) (g := φ s) fun b hb => Finset.mem_image_of_mem _ hb]
      refine Finset.sum_congr rfl fun u _ => ?_
      rw [Finset.sum_congr rfl fun b hb => by rw [(Finset.mem_filter.1 hb).2], Finset.sum_const, nsmul_eq_mul, sq]
    rw [div_le_iff₀ (hCpos s)]
    have := sq_sum_le_card_mul_sum_sq (s := Box.image (φ s)) (f := fun u => (#{b ∈ Box | φ s b = u} : ℚ))
    rw [← e1, ← e2] at this
    exact this
  have hsum : ∑ s ∈ S, C s ≤ #S * (#Box + #Box ^ 2 * κ) := by
    have e : ∑ s ∈ S, C s = ∑ b ∈ Box, ∑ b' ∈ Box, (#{s ∈ S | φ s b' = φ s b} : ℚ) := by
      have : ∀ s b, (#{b' ∈ Box | φ s b' = φ s b} : ℚ) = ∑ b' ∈ Box, if φ s b' = φ s b then (1 : ℚ) else 0 := fun s b => by
        rw [Finset.sum_boole]
      have h2 : ∀ b b', (#{s ∈ S | φ s b' = φ s b} : ℚ) = ∑ s ∈ S, if φ s b' = φ s b then (1 : ℚ) else 0 := fun b b' => by
        rw [Finset.sum_boole]
      simp only [C, this, h2]
      rw [Finset.sum_comm]
      exact Finset.sum_congr rfl fun b _ => Finset.sum_comm
    rw [e]
    have hb : ∀ b ∈ Box, ∑ b' ∈ Box, (#{s ∈ S | φ s b' = φ s b} : ℚ) ≤ #S + #Box * (κ * #S) := fun b hb => by
      have : ∀ b' ∈ Box, (#{s ∈ S | φ s b' = φ s b} : ℚ) ≤ (if b' = b then (#S : ℚ) else 0) + κ * #S := fun b' hb' => by
        split_ifs with he
        · have : (#{s ∈ S | φ s b' = φ s b} : ℚ) ≤ #S := by exact_mod_cast Finset.card_filter_le _ _
          have h0 : 0 ≤ κ * #S := by positivity
          linarith
        · rw [zero_add]
          exact h b' hb' b hb he
      refine (Finset.sum_le_sum this).trans ?_
      rw [Finset.sum_add_distrib, Finset.sum_ite_eq', if_pos hb, Finset.sum_const, nsmul_eq_mul]
    refine (Finset.sum_le_sum hb).trans ?_
    rw [Finset.sum_const, nsmul_eq_mul]
    apply le_of_eq
    ring
  have hsed := Finset.sq_sum_div_le_sum_sq_div S (fun _ => (#Box : ℚ)) (g := C) fun s _ => hCpos s
  refine le_trans ?_ (hsed.trans (Finset.sum_le_sum fun s _ => hCS s))
  rw [Finset.sum_const, nsmul_eq_mul]
  have hCtot : 0 < ∑ s ∈ S, C s := Finset.sum_pos (fun s _ => hCpos s) (Finset.card_pos.1 hS)
  rw [div_le_div_iff₀ (by positivity) hCtot]
  calc (#S : ℚ) * ∑ s ∈ S, C s ≤ #S * (#S * (#Box + #Box ^ 2 * κ)) := by gcongr
    _ = (#S * #Box) ^ 2 * (1 / #Box + κ) := by field_simp

/-- Two different lists agree at at most a fraction `k/(q-1)` of the challenges. -/
theorem agree_le (k : ℕ) (v B : List Zr) (hv : v.length = 2 ^ k) (hB : B.length = 2 ^ k) (hne : v ≠ B) :
    (#{xs ∈ challengeLists k | dot v (monomials xs) = dot B (monomials xs)} : ℚ)
      ≤ k / ((order : ℚ) - 1) * #(challengeLists k) := by
  obtain ⟨c, hc⟩ : ∃ c, c = List.zipWith (· + ·) v (B.map fun a => -a) := ⟨_, rfl⟩
  have lc : c.length = 2 ^ k := by simp [hc, hv, hB]
  have hz := zeros_le k c lc (by
    by_contra hcon
    push Not at hcon
    apply hne
    refine List.ext_getElem (by rw [hv, hB]) fun i h1 h2 => ?_
    have := hcon i (by omega)
    simp only [hc, List.getD_eq_getElem?_getD, List.getElem?_zipWith, List.getElem?_map, List.getElem?_eq_getElem h1,
      List.getElem?_eq_getElem h2, Option.map_some, Option.getD_some] at this
    linear_combination this)
  have he : #{xs ∈ challengeLists k | dot c (monomials xs) = 0}
      = #{xs ∈ challengeLists k | dot v (monomials xs) = dot B (monomials xs)} := by
    congr 1
    refine Finset.filter_congr fun xs _ => ?_
    rw [hc, dot_add_left _ _ _ (by simp [hv, hB]), dot_neg_left, ← sub_eq_add_neg, sub_eq_zero]
  rw [he] at hz
  have hz' : (#{xs ∈ challengeLists k | dot v (monomials xs) = dot B (monomials xs)} : ℚ) * ((order - 1 : ℕ) : ℚ)
      ≤ (k : ℚ) * ((order - 1 : ℕ) : ℚ) ^ k := by exact_mod_cast hz
  rw [order_pred_cast] at hz'
  rw [card_challengeLists, Nat.cast_pow, order_pred_cast, div_mul_eq_mul_div, le_div_iff₀ order_pred_pos]
  exact hz'

/-- The list of `n` values below `2^63`. -/
def boxList (n : ℕ) (f : Fin n → Fin (2 ^ 63)) : List Zr := List.ofFn fun i => ((f i : ℕ) : Zr)

theorem boxList_injective (n : ℕ) : Function.Injective (boxList n) := fun f g h => by
  have := List.ofFn_injective h
  funext i
  apply Fin.ext
  exact natCast_inj (f i).2 (g i).2 (congrFun this i)

open Classical in
/-- All lists of `n` values below `2^63`. -/
noncomputable def box (n : ℕ) : Finset (List Zr) := univ.image (boxList n)

theorem card_box (n : ℕ) : #(box n) = (2 ^ 63) ^ n := by
  classical
  rw [box, Finset.card_image_of_injective _ (boxList_injective n), Finset.card_univ, Fintype.card_fun, Fintype.card_fin,
    Fintype.card_fin]

theorem mem_box (n : ℕ) (B : List Zr) (h : B ∈ box n) : B.length = n ∧ ∀ b ∈ B, b.val < 2 ^ 63 := by
  classical
  rw [box, Finset.mem_image] at h
  obtain ⟨f, -, rfl⟩ := h
  refine ⟨by simp [boxList], fun b hb => ?_⟩
  rw [boxList, List.mem_ofFn] at hb
  obtain ⟨i, rfl⟩ := hb
  rw [ZMod.val_natCast_of_lt (lt_trans (f i).2 two_pow_63_lt_order)]
  exact (f i).2

theorem monomials_head : ∀ xs : List Zr, ∃ t, monomials xs = 1 :: t
  | [] => ⟨[], rfl⟩
  | x :: xs => by
    obtain ⟨t, h⟩ := monomials_head xs
    exact ⟨t ++ Vec.mul (1 :: t) x, by rw [monomials, h]; rfl⟩

theorem forgeable_card (k : ℕ) (vs xs : List Zr) (hvs : vs.length + 1 = 2 ^ k) (hxs : xs.length = k) [DecidableEq (List Zr)]
    [DecidablePred (Forgeable k vs xs)] :
    #((box (2 ^ k)).image fun B => dot B (monomials xs)) ≤ #{v₀ : Zr | Forgeable k vs xs v₀} + 2 ^ 63 := by
  classical
  obtain ⟨t, ht⟩ := monomials_head xs
  have h1 : (box (2 ^ k)).image (fun B => dot B (monomials xs)) ⊆
      ((univ.filter (Forgeable k vs xs)) ∪ (Finset.univ.image fun i : Fin (2 ^ 63) => ((i : ℕ) : Zr))).image
        fun v₀ => v₀ + dot vs t := by
    intro y hy
    rw [Finset.mem_image] at hy
    obtain ⟨B, hB, rfl⟩ := hy
    obtain ⟨lB, hBr⟩ := mem_box _ _ hB
    rw [Finset.mem_image]
    refine ⟨dot B (monomials xs) - dot vs t, ?_, by ring⟩
    rw [Finset.mem_union]
    by_cases hlt : (dot B (monomials xs) - dot vs t).val < 2 ^ 63
    · right
      rw [Finset.mem_image]
      refine ⟨⟨_, hlt⟩, Finset.mem_univ _, ?_⟩
      show (((dot B (monomials xs) - dot vs t).val : ℕ) : Zr) = _
      rw [ZMod.natCast_val, ZMod.cast_id]
    · left
      rw [Finset.mem_filter]
      refine ⟨Finset.mem_univ _, not_lt.1 hlt, B, lB, hBr, ?_⟩
      rw [multilinear_eq (by rw [lB, hxs]), multilinear_eq (by rw [List.length_cons, hvs, hxs]), ht, dot_cons, ← ht]
      simp
  calc _ ≤ _ := Finset.card_le_card h1
    _ ≤ _ := Finset.card_image_le
    _ ≤ _ := Finset.card_union_le _ _
    _ ≤ _ := Nat.add_le_add_left (Finset.card_image_le.trans (by rw [Finset.card_univ, Fintype.card_fin])) _

theorem forgeable_rate (k : ℕ) (hk1 : 3 ≤ k) (hk2 : k ≤ 15) (vs : List Zr) (hvs : vs.length + 1 = 2 ^ k) :
    1 / ((k : ℚ) + 1) ≤ rate (challengeLists k ×ˢ (univ : Finset Zr)) fun q => Forgeable k vs q.1 q.2 := by
  classical
  have hq := order_pred_pos
  have hSpos := challengeLists_pos k
  have hSq : (0 : ℚ) < #(challengeLists k) := by exact_mod_cast hSpos
  have hb := image_bound (challengeLists k) (box (2 ^ k)) (fun xs B => dot B (monomials xs)) (k / ((order : ℚ) - 1))
    (by positivity) hSpos (by rw [card_box]; positivity)
    (fun B hB B' hB' hne => agree_le k B B' (mem_box _ _ hB).1 (mem_box _ _ hB').1 hne)
  rw [rate_prod]
  have hsum : ∑ xs ∈ challengeLists k, (#((box (2 ^ k)).image fun B => dot B (monomials xs)) : ℚ)
      ≤ ∑ xs ∈ challengeLists k, ((order : ℚ) * rate (univ : Finset Zr) (Forgeable k vs xs) + 2 ^ 63) := by
    refine Finset.sum_le_sum fun xs hxs => ?_
    have := forgeable_card k vs xs hvs ((mem_challengeLists _ _).1 hxs).1
    have h2 : (order : ℚ) * rate (univ : Finset Zr) (Forgeable k vs xs) = #{v₀ : Zr | Forgeable k vs xs v₀} := by
      rw [rate, Finset.card_univ, ZMod.card]
      rw [mul_div_cancel₀]
      exact order_pos_cast.ne'
    rw [h2]
    exact_mod_cast this
  rw [Finset.sum_add_distrib, Finset.sum_const, nsmul_eq_mul, ← Finset.mul_sum] at hsum
  obtain ⟨T, hT⟩ : ∃ T, T = ∑ xs ∈ challengeLists k, rate (univ : Finset Zr) (Forgeable k vs xs) := ⟨_, rfl⟩
  rw [← hT] at hsum ⊢
  have hK1 : (3 : ℚ) ≤ k := by exact_mod_cast hk1
  have hK2 : (k : ℚ) ≤ 15 := by exact_mod_cast hk2
  have hQ : (2 : ℚ) ^ 253 ≤ order := by exact_mod_cast two_pow_253_lt_order.le
  have hQ2 : (order : ℚ) ≤ 2 ^ 254 := by exact_mod_cast order_lt_two_pow_254.le
  have hBox : 2 * ((order : ℚ) - 1) ≤ #(box (2 ^ k)) := by
    have h1 : (2 : ℕ) ^ 255 ≤ #(box (2 ^ k)) := by
      rw [card_box, ← pow_mul]
      refine Nat.pow_le_pow_right (by norm_num) ?_
      have : 2 ^ 3 ≤ 2 ^ k := Nat.pow_le_pow_right (by norm_num) hk1
      omega
    have h2 : (2 : ℚ) ^ 255 ≤ #(box (2 ^ k)) := by exact_mod_cast h1
    have h3 : (2 : ℚ) * 2 ^ 254 ≤ 2 ^ 255 := by norm_num
    linarith
  have hden : 1 / (#(box (2 ^ k)) : ℚ) + k / ((order : ℚ) - 1) ≤ (k + 1 / 2) / ((order : ℚ) - 1) := by
    have : 1 / (#(box (2 ^ k)) : ℚ) ≤ 1 / (2 * ((order : ℚ) - 1)) := one_div_le_one_div_of_le (by positivity) hBox
    rw [add_div, div_div]
    linarith
  have hBpos : (0 : ℚ) < #(box (2 ^ k)) := lt_of_lt_of_le (by positivity) hBox
  have h4 : (#(challengeLists k) : ℚ) * (((order : ℚ) - 1) / (k + 1 / 2)) ≤ order * T + #(challengeLists k) * 2 ^ 63 := by
    refine le_trans ?_ (hb.trans hsum)
    rw [div_eq_mul_inv _ (1 / (#(box (2 ^ k)) : ℚ) + _), ← inv_div]
    gcongr
  have h5 : (order : ℚ) / (k + 1) + 2 ^ 63 ≤ ((order : ℚ) - 1) / (k + 1 / 2) := by
    rw [le_div_iff₀ (by positivity), add_mul, div_mul_eq_mul_div, ← le_sub_iff_add_le, div_le_iff₀ (by positivity)]
    have h6 : ((k : ℚ) + 1 / 2) * (k + 1) ≤ 2 ^ 8 := by nlinarith
    have h7 : (2 : ℚ) ^ 63 * (((k : ℚ) + 1 / 2) * (k + 1)) ≤ 2 ^ 63 * 2 ^ 8 := by gcongr
    have h8 : (2 : ℚ) ^ 63 * 2 ^ 8 + 16 ≤ 2 ^ 253 / 2 := by norm_num
    nlinarith
  have h9 : (#(challengeLists k) : ℚ) * ((order : ℚ) / (k + 1)) ≤ order * T := by
    have := mul_le_mul_of_nonneg_left h5 hSq.le
    linarith
  rw [le_div_iff₀ hSq, div_mul_eq_mul_div, one_mul, div_le_iff₀ (by positivity)]
  have h10 : (#(challengeLists k) : ℚ) * ((order : ℚ) / (k + 1)) * (k + 1) ≤ order * T * (k + 1) := by gcongr
  have h11 : (#(challengeLists k) : ℚ) * ((order : ℚ) / (k + 1)) * (k + 1) = order * #(challengeLists k) := by field_simp
  rw [h11, mul_assoc] at h10
  exact le_of_mul_le_mul_left h10 order_pos_cast

end PoL.BP
