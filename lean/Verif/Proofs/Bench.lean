import Verif.Model.Bench
import Verif.Proofs.Paths2
import Verif.Proofs.VerkleCodec
import Verif.Spec.Bench
import Verif.Props.PolParams

/-!
# Lemmas on the benchmark program
-/

namespace PoL.Bench

open Spec Pol Verkle Props

variable {G1 G2 GT : Type} [AddCommGroup G1] [Module Zr G1] [AddCommGroup G2] [Module Zr G2]
  [AddCommGroup GT] [Module Zr GT] [DecidableEq G1] [DecidableEq GT]

theorem decimalValue_append (l : Str) (c : Char) :
    decimalValue (l ++ [c]) = decimalValue l * 10 + (c.toNat - '0'.toNat) := by
  unfold decimalValue
  rw [List.reverse_append, List.reverse_singleton, List.singleton_append, List.map_cons, Nat.ofDigits_cons]
  ring

theorem decimalValue_ofDigitChars (l : Str) : decimalValue l = Nat.ofDigitChars 10 l 0 := by
  induction l using List.reverseRecOn with
  | nil => rfl
  | append_singleton l c ih =>
    rw [decimalValue_append, Nat.ofDigitChars_append, ← ih]
    simp [Nat.ofDigitChars]; ring

theorem decimalValue_toDigits (n : ℕ) : decimalValue (Nat.toDigits 10 n) = n := by
  rw [decimalValue_ofDigitChars, Nat.ofDigitChars_toDigits (by norm_num) (by norm_num)]

theorem isDecimal_toDigits (n : ℕ) : IsDecimal (Nat.toDigits 10 n) := fun _ hc =>
  Nat.isDigit_of_mem_toDigits (by norm_num) (by norm_num) hc

theorem length_toDigits (n : ℕ) (h1 : 10 ^ 8 ≤ n) (h2 : n < 10 ^ 9) : (Nat.toDigits 10 n).length = 9 := by
  have hle := Nat.toDigits_length 10 n 9 (by norm_num) h2
  have hlt := decimalValue_lt _ (isDecimal_toDigits n)
  rw [decimalValue_toDigits] at hlt
  by_contra hne
  have : 10 ^ (Nat.toDigits 10 n).length ≤ 10 ^ 8 := Nat.pow_le_pow_right (by norm_num) (by omega)
  omega

theorem hexValue_append (l : Str) (c : Char) : hexValue (l ++ [c]) = hexValue l * 16 + hexDigitValue c := by
  unfold hexValue
  rw [List.reverse_append, List.reverse_singleton, List.singleton_append, List.map_cons, Nat.ofDigits_cons]
  ring

theorem hexDigitValue_hexChar : ∀ n < 16, hexDigitValue (hexChar n) = n := by decide

theorem hexValue_hexEncode (b : Bytes) : hexValue (hexEncode b) = beToNat b := by
  induction b using List.reverseRecOn with
  | nil => rfl
  | append_singleton b x ih =>
    have hx := x.toNat_lt
    have e : hexEncode (b ++ [x]) = hexEncode b ++ [hexChar (x.toNat / 16)] ++ [hexChar (x.toNat % 16)] := by
      simp [hexEncode]
    rw [e, hexValue_append, hexValue_append, ih, hexDigitValue_hexChar _ (by omega), hexDigitValue_hexChar _ (by omega)]
    unfold beToNat
    rw [List.foldl_append]
    simp only [List.foldl_cons, List.foldl_nil]
    omega

/-- The total of a history is at most the sum of all its amounts, if none is negative. -/
theorem totalAmount_le (h : List (List ℕ × ℤ)) (hn : ∀ e ∈ h, 0 ≤ e.2) : totalAmount h ≤ (h.map Prod.snd).sum := by
  unfold totalAmount
  induction h using List.reverseRecOn with
  | nil => simp
  | append_singleton h e ih =>
    have hn' : ∀ e ∈ h, 0 ≤ e.2 := fun e he => hn e (by simp [he])
    have he0 : 0 ≤ e.2 := hn e (by simp)
    have hlat : ∀ p, latest (h ++ [e]) p = if e.1 = p then e.2 else latest h p := by
      intro p
      unfold latest lastPut
      rw [List.reverse_append, List.reverse_singleton, List.singleton_append, List.find?_cons]
      by_cases hp : e.1 = p <;> simp [hp]
    have hl0 : ∀ p, 0 ≤ latest h p := by
      intro p
      unfold latest lastPut
      cases hf : h.reverse.find? fun e => decide (e.1 = p) with
      | none => simp
      | some y => simpa using hn' y (by simpa using List.mem_of_find?_eq_some hf)
    have hset : ((h ++ [e]).map Prod.fst).toFinset = insert e.1 (h.map Prod.fst).toFinset := by
      ext p; simp
    rw [hset, List.map_append, List.sum_append, List.map_singleton, List.sum_singleton]
    have h1 : ∑ p ∈ insert e.1 (h.map Prod.fst).toFinset, latest (h ++ [e]) p
        = e.2 + ∑ p ∈ (h.map Prod.fst).toFinset.erase e.1, latest h p := by
      rw [← Finset.insert_erase (Finset.mem_insert_self e.1 _), Finset.sum_insert (by simp)]
      rw [hlat, if_pos rfl]
      congr 1
      rw [Finset.erase_insert_eq_erase]
      refine Finset.sum_congr rfl fun p hp => ?_
      rw [hlat, if_neg (Ne.symm (Finset.ne_of_mem_erase hp))]
    rw [h1]
    have h2 : ∑ p ∈ (h.map Prod.fst).toFinset.erase e.1, latest h p ≤ ∑ p ∈ (h.map Prod.fst).toFinset, latest h p :=
      Finset.sum_le_sum_of_subset_of_nonneg (Finset.erase_subset _ _) fun p _ _ => hl0 p
    have := ih hn'
    omega

theorem foldl_add_toInt (s : List Int64) : ∀ a : Int64, 0 ≤ a.toInt → (∀ x ∈ s, 0 ≤ x.toInt) →
    a.toInt + (s.map Int64.toInt).sum < 2 ^ 63 →
    (s.foldl (fun sum size => sum + size) a).toInt = a.toInt + (s.map Int64.toInt).sum := by
  induction s with
  | nil => intro a _ _ _; simp
  | cons x t ih =>
    intro a ha hx hlt
    have hx0 := hx x (by simp)
    have ht0 : 0 ≤ (t.map Int64.toInt).sum := List.sum_nonneg fun y hy => by
      obtain ⟨z, hz, rfl⟩ := List.mem_map.1 hy
      exact hx z (by simp [hz])
    rw [List.map_cons, List.sum_cons] at hlt ⊢
    have hax : (a + x).toInt = a.toInt + x.toInt := by
      rw [Int64.toInt_add, Int.bmod_eq_of_le (by omega) (by omega)]
    rw [List.foldl_cons, ih (a + x) (by omega) (fun y hy => hx y (by simp [hy])) (by omega), hax]
    ring

theorem mapM_some_of {A B : Type} (l : List A) (f : A → Option B) (z : A → B) (h : ∀ x ∈ l, f x = some (z x)) :
    l.mapM f = some (l.map z) := by
  induction l with
  | nil => rfl
  | cons x t ih =>
    rw [List.mapM_cons, h x (by simp), ih fun y hy => h y (by simp [hy])]
    rfl

theorem params_fit (E : Curve G1 G2 GT) (α : Zr) (fanOut : UInt16) (treeType : TreeType) (id2Path : Str → Option (List ℕ))
    (pp : PublicParams G1 G2 GT) (hgen : generatePublicParams E α fanOut treeType = some (id2Path, pp)) (L : ℕ)
    (hL : treeDepth treeType fanOut = some L) : Fits E α fanOut.toNat L pp := by
  obtain ⟨u1, u2, u3⟩ := C54_unsupported E α fanOut
  cases treeType with
  | dense =>
    have hf : 2 ≤ fanOut.toNat := by
      by_contra hc
      rw [u1 (by omega)] at hgen
      simp at hgen
    cases hp : digitPath fanOut with
    | none => rw [u2 hp] at hgen; simp at hgen
    | some f =>
      obtain ⟨L', pp', h1, h2, h3⟩ := C54_dense E α fanOut f hp hf
      rw [hgen, Option.some.injEq, Prod.mk.injEq] at h2
      have hL : digitPathLen fanOut = some L := hL
      rw [hL, Option.some.injEq] at h1
      rw [h1, h2.2]
      exact h3
  | sparse =>
    cases hp : hexId2Path E fanOut with
    | none => rw [u3 hp] at hgen; simp at hgen
    | some f =>
      obtain ⟨L', pp', h1, h2, h3, -⟩ := C54_sparse E α fanOut f hp
      rw [hgen, Option.some.injEq, Prod.mk.injEq] at h2
      have hL : expectedHexPathLength fanOut.toNat = some L := hL
      rw [hL, Option.some.injEq] at h1
      rw [h1, h2.2]
      exact h3

theorem params_exist (E : Curve G1 G2 GT) (treeType : TreeType) (fanOut : UInt16) (hf : fanOut ∈ fanouts) (α : Zr) :
    ∃ id2Path pp L, generatePublicParams E α fanOut treeType = some (id2Path, pp) ∧ treeDepth treeType fanOut = some L := by
  have hmem : fanOut.toNat ∈ [3, 7, 15, 31, 63, 127, 255, 511, 1023, 2047, 4095, 8191, 16383] ∧ 2 ≤ fanOut.toNat ∧
      ∃ k, 1 ≤ k ∧ k ≤ 15 ∧ fanOut.toNat = 2 ^ k - 1 := by
    simp only [fanouts, List.mem_cons, List.not_mem_nil, or_false] at hf
    rcases hf with rfl | rfl | rfl | rfl | rfl | rfl | rfl | rfl
    · exact ⟨by decide, by decide, 2, by decide, by decide, rfl⟩
    · exact ⟨by decide, by decide, 3, by decide, by decide, rfl⟩
    · exact ⟨by decide, by decide, 4, by decide, by decide, rfl⟩
    · exact ⟨by decide, by decide, 5, by decide, by decide, rfl⟩
    · exact ⟨by decide, by decide, 6, by decide, by decide, rfl⟩
    · exact ⟨by decide, by decide, 7, by decide, by decide, rfl⟩
    · exact ⟨by decide, by decide, 8, by decide, by decide, rfl⟩
    · exact ⟨by decide, by decide, 9, by decide, by decide, rfl⟩
  cases treeType with
  | dense =>
    obtain ⟨f, h⟩ := (C30_supported_fanouts fanOut).2 hmem.2.2
    obtain ⟨L, pp, h1, h2, -⟩ := C54_dense E α fanOut f h hmem.2.1
    exact ⟨f, pp, L, h2, h1⟩
  | sparse =>
    obtain ⟨f, h⟩ := (C28_supported_fanouts E fanOut).2 hmem.1
    obtain ⟨L, pp, h1, h2, -⟩ := C54_sparse E α fanOut f h
    exact ⟨f, pp, L, h2, h1⟩

/-- Random values of the right sizes exist. -/
theorem rand_exists {E : Curve G1 G2 GT} {α : Zr} {F L : ℕ} {pp : PublicParams G1 G2 GT} (h : Fits E α F L pp) :
    ∃ rnd, RandSized F L rnd := by
  have hL := fits_L_bound h
  have hL' := h.depth
  obtain ⟨M, -, hM⟩ := padLoop_spec (m := L - 1) (by omega) (by omega)
  refine ⟨⟨fun _ => ⟨List.replicate (F + 1) 0, 0, 0, 0, List.replicate _ 0, List.replicate _ 0, 0, 0⟩, ⟨List.replicate (F + 1) 0, 0⟩,
    ⟨List.replicate M (0, 0, 0), 0, 0⟩⟩, fun _ _ => ⟨List.length_replicate, List.length_replicate, List.length_replicate⟩, by simp, by simpa using hM⟩

theorem history_bounds (treeType : TreeType) (iterations numIds : ℕ) (d : Draws) :
    ∀ e ∈ history treeType iterations numIds d, 0 ≤ e.2 ∧ e.2 ≤ 1000 := by
  intro e he
  unfold history populate at he
  rcases List.mem_append.1 he with he | he
  · obtain ⟨i, -, he⟩ := List.mem_flatMap.1 he
    obtain ⟨j, hj, rfl⟩ := List.mem_map.1 he
    have := List.mem_range.1 hj
    constructor <;> dsimp only <;> omega
  · obtain ⟨i, -, rfl⟩ := List.mem_map.1 he
    constructor <;> dsimp only <;> omega

theorem history_nonneg (treeType : TreeType) (iterations numIds : ℕ) (d : Draws) :
    ∀ e ∈ history treeType iterations numIds d, 0 ≤ e.2 := fun e he => (history_bounds _ _ _ _ e he).1

theorem history_length (treeType : TreeType) (iterations numIds : ℕ) (d : Draws) :
    (history treeType iterations numIds d).length ≤ numIds + iterations := by
  unfold history populate
  rw [List.length_append, List.length_map, List.length_range, List.length_flatMap]
  simp only [List.length_map, List.length_range, List.map_const', List.sum_replicate, smul_eq_mul]
  omega

theorem history_total (treeType : TreeType) (iterations numIds : ℕ) (d : Draws) (id2Path : Str → Option (List ℕ))
    (hit : iterations < 2 ^ 31) (hnum : numIds < 2 ^ 31) :
    totalAmount (byPath id2Path (history treeType iterations numIds d)) < 2 ^ 63 := by
  have hb := history_bounds treeType iterations numIds d
  have hl := history_length treeType iterations numIds d
  have h1 := totalAmount_le (byPath id2Path (history treeType iterations numIds d)) (by
    intro e he
    obtain ⟨e', he', rfl⟩ := List.mem_map.1 he
    exact (hb e' he').1)
  have h2 : ((byPath id2Path (history treeType iterations numIds d)).map Prod.snd).sum
      ≤ ((byPath id2Path (history treeType iterations numIds d)).map Prod.snd).length • (1000 : ℤ) := by
    refine List.sum_le_card_nsmul _ _ ?_
    intro x hx
    obtain ⟨e, he, rfl⟩ := List.mem_map.1 hx
    obtain ⟨e', he', rfl⟩ := List.mem_map.1 he
    exact (hb e' he').2
  unfold byPath at h2
  rw [List.length_map, List.length_map, nsmul_eq_mul] at h2
  have h3 : ((history treeType iterations numIds d).length : ℤ) ≤ numIds + iterations := by exact_mod_cast hl
  unfold byPath at h1 ⊢
  omega

theorem measured_mem (treeType : TreeType) (iterations numIds : ℕ) (d : Draws) (id2Path : Str → Option (List ℕ)) (i : ℕ)
    (hi : i < iterations) (p : List ℕ) (hp : id2Path (idGen treeType (d.measured i)) = some p) :
    p ∈ (byPath id2Path (history treeType iterations numIds d)).map Prod.fst := by
  refine List.mem_map.2 ⟨(p, 666), List.mem_map.2 ⟨(idGen treeType (d.measured i), 666), ?_, by simp [hp]⟩, rfl⟩
  unfold history
  exact List.mem_append_right _ (List.mem_map.2 ⟨i, List.mem_range.2 hi, rfl⟩)

end PoL.Bench
