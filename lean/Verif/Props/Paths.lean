import Verif.Proofs.Paths2
import Verif.Spec.Toy

/-!
# Identifiers and paths (C28–C33)
-/

set_option linter.unusedSectionVars false

namespace PoL.Props
open Spec

variable {G1 G2 GT : Type} [AddCommGroup G1] [Module Zr G1] [AddCommGroup G2] [Module Zr G2]
  [AddCommGroup GT] [Module Zr GT]

/-! ## C28, C29: sparse identifiers -/

/-- C28: a path function exists exactly for the tabulated fan-outs. -/
theorem C28_supported_fanouts (E : Curve G1 G2 GT) (fanout : UInt16) :
    (∃ toPath, hexId2Path E fanout = some toPath) ↔
      fanout.toNat ∈ [3, 7, 15, 31, 63, 127, 255, 511, 1023, 2047, 4095, 8191, 16383] := by
  constructor
  · rintro ⟨toPath, h⟩
    obtain ⟨L, hL, -⟩ := (hexId2Path_eq_some_iff E fanout toPath).1 h
    unfold expectedHexPathLength at hL
    split at hL <;> first | (rename_i heq; rw [heq]; simp) | simp at hL
  · intro h
    have : ∃ L, expectedHexPathLength fanout.toNat = some L := by
      simp only [List.mem_cons, List.not_mem_nil, or_false] at h
      rcases h with h | h | h | h | h | h | h | h | h | h | h | h | h <;> rw [h] <;> exact ⟨_, rfl⟩
    obtain ⟨L, hL⟩ := this
    exact ⟨_, (hexId2Path_eq_some_iff E fanout _).2 ⟨L, hL, rfl⟩⟩

/-- C28: whenever the path function returns on *any* string, the path has the tabulated length and its
components are below the fan-out. -/
theorem C28_paths_well_formed (E : Curve G1 G2 GT) (fanout : UInt16) (toPath : Str → Option (List ℕ))
    (h : hexId2Path E fanout = some toPath) (s : Str) (p : List ℕ) (hp : toPath s = some p) :
    expectedHexPathLength fanout.toNat = some p.length ∧ ∀ x ∈ p, x < fanout.toNat := by
  obtain ⟨L, hL, rfl⟩ := (hexId2Path_eq_some_iff E fanout toPath).1 h
  have hf := (expectedHexPathLength_ge_two _ _ hL).1
  have hlt := fanout.toNat_lt
  have key : ∀ (s : Str) (r : List ℕ), hexPathLoop E fanout L s = some r →
      r.length = L ∧ ∀ x ∈ r, x < fanout.toNat :=
    hexPathLoop.partial_correctness E fanout L (fun _ r => r.length = L ∧ ∀ x ∈ r, x < fanout.toNat)
      (fun loop ih s r hr => by
        cases hc : convertPathWithFanout s fanout with
        | none => simp [hc] at hr
        | some path =>
          simp only [hc, Option.pure_def, Option.bind_eq_bind, Option.bind_some] at hr
          by_cases hlen : path.length = L
          · rw [if_pos hlen, Option.some.injEq] at hr
            subst hr
            refine ⟨hlen, ?_⟩
            unfold convertPathWithFanout at hc
            cases hn : parseSigned hexDigit 16 s with
            | none => simp [hn] at hc
            | some n =>
              simp only [hn, Option.bind_eq_bind, Option.bind_some] at hc
              rcases lt_or_ge n 0 with hneg | hpos
              · rw [bigDigitsLoop_neg _ _ hneg] at hc; simp at hc
              · obtain ⟨m, rfl⟩ := Int.eq_ofNat_of_zero_le hpos
                rw [bigDigitsLoop_nat _ hf (by omega), Option.some.injEq] at hc
                subst hc
                exact fun x hx => Nat.digits_lt_base hf hx
          · rw [if_neg hlen] at hr
            exact ih _ _ hr)
  obtain ⟨h1, h2⟩ := key s p hp
  exact ⟨by rw [h1]; exact hL, h2⟩

/-- C28: on a 64-character hexadecimal identifier the path function returns as soon as the identifier, or
one of its iterated hashes, has a value with the tabulated number of digits; the path then encodes that
value. -/
theorem C28_returns (E : Curve G1 G2 GT) (hE : E.Lawful) (fanout : UInt16)
    (toPath : Str → Option (List ℕ)) (h : hexId2Path E fanout = some toPath) (L : ℕ)
    (hL : expectedHexPathLength fanout.toNat = some L) (s : Str) (hs : IsSparseId s) (j : ℕ)
    (hj : fanout.toNat ^ (L - 1) ≤ hexValue ((hashId E)^[j] s) ∧ hexValue ((hashId E)^[j] s) < fanout.toNat ^ L) :
    ∃ p, toPath s = some p ∧ ∃ i ≤ j, Nat.ofDigits fanout.toNat p = hexValue ((hashId E)^[i] s) := by
  obtain ⟨L', hL', rfl⟩ := (hexId2Path_eq_some_iff E fanout toPath).1 h
  rw [hL, Option.some.injEq] at hL'
  subst hL'
  obtain ⟨hf, hL1, -⟩ := expectedHexPathLength_ge_two _ _ hL
  induction j generalizing s with
  | zero =>
    rw [hexPathLoop_hex E fanout hf L s (sparseId_ne_nil s hs) hs.2]
    rw [Function.iterate_zero, id] at hj
    rw [if_pos ((digits_length_eq_iff _ _ _ hf hL1).2 hj)]
    exact ⟨_, rfl, 0, le_refl _, by rw [Nat.ofDigits_digits]; rfl⟩
  | succ j ih =>
    rw [hexPathLoop_hex E fanout hf L s (sparseId_ne_nil s hs) hs.2]
    by_cases hlen : (fanout.toNat.digits (hexValue s)).length = L
    · rw [if_pos hlen]
      exact ⟨_, rfl, 0, by omega, by rw [Nat.ofDigits_digits]; rfl⟩
    · rw [if_neg hlen]
      rw [Function.iterate_succ_apply] at hj
      obtain ⟨p, hp, i, hi, hi2⟩ := ih (hashId E s) (hashId_isSparseId E hE s) hj
      exact ⟨p, hp, i + 1, by omega, by rw [Function.iterate_succ_apply]; exact hi2⟩

/-- C28: on the negation of a number the path function never returns. -/
theorem C28_negative_never_returns (E : Curve G1 G2 GT) (fanout : UInt16)
    (toPath : Str → Option (List ℕ)) (h : hexId2Path E fanout = some toPath) (s : Str)
    (hs : IsHex s) (h0 : 0 < hexValue s) : toPath ('-' :: s) = none := by
  obtain ⟨L, hL, rfl⟩ := (hexId2Path_eq_some_iff E fanout toPath).1 h
  have hne : s ≠ [] := by rintro rfl; simp [hexValue] at h0
  rw [hexPathLoop]
  have : convertPathWithFanout ('-' :: s) fanout = none := by
    unfold convertPathWithFanout parseSigned
    simp only [Option.pure_def, Option.bind_eq_bind]
    rw [parseDigits_eq hexDigit hexDigitValue 16 s hne (fun c hc => hexDigit_eq c (hs c hc))]
    simp only [Option.bind_some]
    apply bigDigitsLoop_neg
    have : Nat.ofDigits 16 (s.reverse.map hexDigitValue) = hexValue s := rfl
    rw [this]
    omega
  rw [this]
  rfl

/-- C29, the part that holds: identifiers whose values have the tabulated number of base-`fanout` digits
are mapped to different paths unless they denote the same number.
Missing for C29: identifiers outside that interval (see `C29_violated_by_rehashing`). -/
theorem C29_native_ids_distinct_partial (E : Curve G1 G2 GT) (fanout : UInt16)
    (toPath : Str → Option (List ℕ)) (h : hexId2Path E fanout = some toPath) (L : ℕ)
    (hL : expectedHexPathLength fanout.toNat = some L) (s t : Str) (hs : IsSparseId s) (ht : IsSparseId t)
    (hsv : fanout.toNat ^ (L - 1) ≤ hexValue s ∧ hexValue s < fanout.toNat ^ L)
    (htv : fanout.toNat ^ (L - 1) ≤ hexValue t ∧ hexValue t < fanout.toNat ^ L)
    (hne : hexValue s ≠ hexValue t) :
    ∃ p q, toPath s = some p ∧ toPath t = some q ∧ p ≠ q := by
  obtain ⟨L', hL', rfl⟩ := (hexId2Path_eq_some_iff E fanout toPath).1 h
  rw [hL, Option.some.injEq] at hL'
  subst hL'
  obtain ⟨hf, hL1, -⟩ := expectedHexPathLength_ge_two _ _ hL
  refine ⟨fanout.toNat.digits (hexValue s), fanout.toNat.digits (hexValue t), ?_, ?_, ?_⟩
  · rw [hexPathLoop_hex E fanout hf L s (sparseId_ne_nil s hs) hs.2,
      if_pos ((digits_length_eq_iff _ _ _ hf hL1).2 hsv)]
  · rw [hexPathLoop_hex E fanout hf L t (sparseId_ne_nil t ht) ht.2,
      if_pos ((digits_length_eq_iff _ _ _ hf hL1).2 htv)]
  · intro heq
    apply hne
    rw [← Nat.ofDigits_digits fanout.toNat (hexValue s), heq, Nat.ofDigits_digits]

/-- C29 is violated: every identifier whose value has the wrong number of digits shares its path with its
own SHA-256 hash, which is itself a valid identifier. -/
theorem C29_violated_by_rehashing (E : Curve G1 G2 GT) (hE : E.Lawful) (fanout : UInt16)
    (toPath : Str → Option (List ℕ)) (h : hexId2Path E fanout = some toPath) (L : ℕ)
    (hL : expectedHexPathLength fanout.toNat = some L) (s : Str) (hs : IsSparseId s)
    (hv : hexValue s < fanout.toNat ^ (L - 1) ∨ fanout.toNat ^ L ≤ hexValue s) :
    IsSparseId (hashId E s) ∧ toPath s = toPath (hashId E s) := by
  obtain ⟨L', hL', rfl⟩ := (hexId2Path_eq_some_iff E fanout toPath).1 h
  rw [hL, Option.some.injEq] at hL'
  subst hL'
  obtain ⟨hf, hL1, -⟩ := expectedHexPathLength_ge_two _ _ hL
  refine ⟨hashId_isSparseId E hE s, ?_⟩
  rw [hexPathLoop_hex E fanout hf L s (sparseId_ne_nil s hs) hs.2, if_neg]
  intro hlen
  have := (digits_length_eq_iff _ _ _ hf hL1).1 hlen
  omega

/-- Instance of the libraries whose hash is the constant `80 00 … 00`. -/
def hash80Curve : Curve Zr Zr Zr := { toyCurve with sha256 := fun _ => 0x80 :: List.replicate 31 0 }

theorem hash80Curve_lawful : hash80Curve.Lawful :=
  { genGt_eq := toyCurve_lawful.genGt_eq
    sha_len := fun _ => rfl
    hmac_len := toyCurve_lawful.hmac_len
    g1_roundtrip := toyCurve_lawful.g1_roundtrip
    g1_nonempty := toyCurve_lawful.g1_nonempty
    g1_len := toyCurve_lawful.g1_len }

/-- The identifier `00…01`. -/
def idOne : Str := List.replicate 63 '0' ++ ['1']

theorem idOne_sparse : IsSparseId idOne := ⟨by decide, by unfold IsHex idOne; decide⟩

theorem idOne_value : hexValue idOne = 1 := by decide +kernel

theorem hash80_id (s : Str) : hashId hash80Curve s = '8' :: List.replicate 63 '0' := by
  have : hashId hash80Curve s = hexEncode (0x80 :: List.replicate 31 0) := rfl
  rw [this]
  decide +kernel

theorem hash80_value : hexValue ('8' :: List.replicate 63 '0') = 2 ^ 255 := by decide +kernel

/-- C29 is violated, concrete case: with fan-out 255 the identifiers `00…01` and `80…00` have different
values and the path function returns the same path for both. -/
theorem C29_violated : ∃ (E : Curve Zr Zr Zr) (_ : E.Lawful) (toPath : Str → Option (List ℕ)) (s t : Str)
    (p : List ℕ), hexId2Path E 255 = some toPath ∧ IsSparseId s ∧ IsSparseId t ∧ hexValue s ≠ hexValue t ∧
      toPath s = some p ∧ toPath t = some p := by
  have hto : (255 : UInt16).toNat = 255 := rfl
  have hL : expectedHexPathLength (255 : UInt16).toNat = some 32 := rfl
  have hfn : hexId2Path hash80Curve 255 = some (hexPathLoop hash80Curve 255 32) :=
    (hexId2Path_eq_some_iff _ _ _).2 ⟨32, hL, rfl⟩
  have hal := C29_violated_by_rehashing hash80Curve hash80Curve_lawful 255 _ hfn 32 hL idOne idOne_sparse
    (Or.inl (by rw [idOne_value, hto]; norm_num))
  rw [hash80_id] at hal
  obtain ⟨p, hp, -⟩ := C28_returns hash80Curve hash80Curve_lawful 255 _ hfn 32 hL _ hal.1 0
    (by rw [Function.iterate_zero, id, hash80_value, hto]; norm_num)
  exact ⟨hash80Curve, hash80Curve_lawful, _, idOne, _, p, hfn, idOne_sparse, hal.1,
    by rw [idOne_value, hash80_value]; norm_num, by rw [hal.2, hp], hp⟩

/-- The hypotheses of `C29_native_ids_distinct_partial` are met by two concrete identifiers. -/
example : ∃ p q, hexPathLoop hash80Curve 255 32 ('8' :: List.replicate 63 '0') = some p ∧
    hexPathLoop hash80Curve 255 32 ('8' :: List.replicate 62 '0' ++ ['1']) = some q ∧ p ≠ q := by
  have hto : (255 : UInt16).toNat = 255 := rfl
  have hv : hexValue ('8' :: List.replicate 62 '0' ++ ['1']) = 2 ^ 255 + 1 := by decide +kernel
  exact C29_native_ids_distinct_partial hash80Curve 255 _ ((hexId2Path_eq_some_iff _ _ _).2 ⟨32, rfl, rfl⟩) 32
    rfl _ _ ⟨by decide, by unfold IsHex; decide⟩ ⟨by decide, by unfold IsHex; decide⟩
    (by rw [hash80_value, hto]; norm_num) (by rw [hv, hto]; norm_num) (by rw [hash80_value, hv]; norm_num)

/-! ## C30, C31: dense identifiers -/

/-- C30: a path function for dense identifiers exists exactly for the fan-outs `2^k - 1`, `1 ≤ k ≤ 15`
(for 0 the code panics, for 65535 it never returns). -/
theorem C30_supported_fanouts (fanout : UInt16) :
    (∃ toPath, digitPath fanout = some toPath) ↔ ∃ k, 1 ≤ k ∧ k ≤ 15 ∧ fanout.toNat = 2 ^ k - 1 := by
  constructor
  · rintro ⟨toPath, h⟩
    unfold digitPath at h
    have hp : isPowerOfTwo (fanout + 1) = some true := by
      cases hp : isPowerOfTwo (fanout + 1) with
      | none => simp [hp] at h
      | some b => cases b with
        | false => simp [hp] at h
        | true => rfl
    obtain ⟨k, hk, hk2⟩ := (isPowerOfTwo_eq_true_iff _).1 hp
    have hlt := (fanout + 1).toNat_lt
    have hk15 : k ≤ 15 := by
      by_contra hc
      have : 2 ^ 16 ≤ 2 ^ k := Nat.pow_le_pow_right (by norm_num) (by omega)
      omega
    refine ⟨k, hk, hk15, ?_⟩
    have hlt2 := fanout.toNat_lt
    rw [UInt16.toNat_add] at hk2
    have h1 : (1 : UInt16).toNat = 1 := rfl
    rw [h1] at hk2
    have : 0 < 2 ^ k := by positivity
    omega
  · rintro ⟨k, hk, hk2, hk3⟩
    refine ⟨digitPathFn fanout, ?_⟩
    unfold digitPath
    rw [fanout_succ_pow fanout k hk hk2 hk3]
    rfl

/-- C30: for every nine-digit identifier the path function returns the base-`fanout` digits of its number
(possibly with an extra zero), so different identifiers get different paths. -/
theorem C30_dense_paths (fanout : UInt16) (toPath : Str → Option (List ℕ)) (h : digitPath fanout = some toPath)
    (hf : 2 ≤ fanout.toNat) (s : Str) (hs : IsDenseId s) :
    ∃ p, toPath s = some p ∧ (∀ x ∈ p, x < fanout.toNat) ∧ Nat.ofDigits fanout.toNat p = decimalValue s := by
  rw [digitPath_eq fanout toPath h]
  obtain ⟨L, -, hp⟩ := digitPathFn_of_parse fanout hf s hs.1 (decimalValue s)
    (parseInt32_decimal s (by rintro rfl; simpa using hs.1) (by rw [hs.1]) hs.2)
  refine ⟨_, hp, ?_, ?_⟩
  · intro x hx
    split_ifs at hx
    · rcases List.mem_append.1 hx with hx | hx
      · exact Nat.digits_lt_base hf hx
      · simp at hx; omega
    · exact Nat.digits_lt_base hf hx
  · split_ifs
    · rw [Nat.ofDigits_append, Nat.ofDigits_digits]; simp
    · rw [Nat.ofDigits_digits]

/-- C30: different nine-digit identifiers get different paths. -/
theorem C30_dense_paths_distinct (fanout : UInt16) (toPath : Str → Option (List ℕ))
    (h : digitPath fanout = some toPath) (hf : 2 ≤ fanout.toNat) (s t : Str) (hs : IsDenseId s)
    (ht : IsDenseId t) (hne : s ≠ t) : ∃ p q, toPath s = some p ∧ toPath t = some q ∧ p ≠ q := by
  obtain ⟨p, hp, -, hp2⟩ := C30_dense_paths fanout toPath h hf s hs
  obtain ⟨q, hq, -, hq2⟩ := C30_dense_paths fanout toPath h hf t ht
  refine ⟨p, q, hp, hq, ?_⟩
  rintro rfl
  exact hne (decimalValue_inj s t hs.2 ht.2 (by rw [hs.1, ht.1]) (by rw [← hp2, ← hq2]))

/-- C30: the path function returns only for strings of nine characters that are decimal numbers, possibly
with a sign. -/
theorem C30_only_decimal (fanout : UInt16) (toPath : Str → Option (List ℕ))
    (h : digitPath fanout = some toPath) (s : Str) (p : List ℕ) (hp : toPath s = some p) :
    s.length = 9 ∧ (IsDecimal s ∨ ∃ t, (s = '+' :: t ∨ s = '-' :: t) ∧ IsDecimal t) := by
  rw [digitPath_eq fanout toPath h] at hp
  unfold digitPathFn at hp
  by_cases hl : s.length = 9
  · refine ⟨hl, ?_⟩
    rw [if_neg (by simpa using hl)] at hp
    cases hn : parseInt32 s with
    | none => simp [hn] at hp
    | some n =>
      unfold parseInt32 at hn
      cases hm : parseSigned decDigit 10 s with
      | none => simp [hm] at hn
      | some m => exact parseSigned_decimal s m hm
  · rw [if_pos (by simpa using hl)] at hp
    simp at hp

/-- C30, an exception found: a negative number is accepted as an identifier, and every negative number
shares the path of `000000000`. -/
theorem C30_negative_numbers_alias_zero (fanout : UInt16) (toPath : Str → Option (List ℕ))
    (h : digitPath fanout = some toPath) (hf : 2 ≤ fanout.toNat) (t : Str) (hl : t.length = 8)
    (ht : IsDecimal t) :
    toPath ('-' :: t) = some [0] ∧ toPath (List.replicate 9 '0') = some [0] := by
  rw [digitPath_eq fanout toPath h]
  obtain ⟨L, hL, -, hL2, -⟩ := digitPathLenLoop_spec fanout.toNat hf 29 1 (by omega)
  have hL0 : L ≠ 0 := by rintro rfl; norm_num at hL2
  constructor
  · have hne : t ≠ [] := by rintro rfl; simp at hl
    have h1 := decimalValue_lt t ht
    rw [hl] at h1
    have h2 : decimalValue t < 100000000 := lt_of_lt_of_le h1 (by norm_num)
    have hparse : parseInt32 ('-' :: t) = some (-(decimalValue t : ℤ)) := by
      unfold parseInt32 parseSigned
      simp only [Option.pure_def, Option.bind_eq_bind]
      rw [parseDigits_eq decDigit (fun c => c.toNat - '0'.toNat) 10 t hne (fun c hc => decDigit_eq c (ht c hc))]
      have : Nat.ofDigits 10 (t.reverse.map fun c => c.toNat - '0'.toNat) = decimalValue t := rfl
      simp only [Option.bind_some, this]
      clear h1
      rw [if_pos ⟨by omega, by omega⟩]
    unfold digitPathFn
    rw [if_neg (by simp [hl]), hparse]
    simp only [Option.pure_def, Option.bind_eq_bind, Option.bind_some]
    rw [digitsLoop_nonpos _ _ (by omega), digitPathLen, hL]
    simp only [Option.bind_some, List.length_nil]
    rw [if_pos (Ne.symm hL0)]
    rfl
  · obtain ⟨L', hL', hp⟩ := digitPathFn_of_parse fanout hf (List.replicate 9 '0') (by simp) 0
      (by rw [parseInt32_decimal _ (by simp) (by simp) (by unfold IsDecimal; decide)]; decide +kernel)
    rw [hp]
    rw [digitPathLen, hL, Option.some.injEq] at hL'
    subst hL'
    simp only [Nat.digits_zero, List.length_nil]
    rw [if_pos (Ne.symm hL0)]
    rfl

/-- C31, the part that holds: exactly the identifiers whose number is at least `fanout^(L-2)` are mapped to
the full depth `L`.  Missing for C31: the others, which get a shorter path. -/
theorem C31_full_depth_iff_partial (fanout : UInt16) (toPath : Str → Option (List ℕ))
    (h : digitPath fanout = some toPath) (hf : 2 ≤ fanout.toNat) (L : ℕ) (hL : digitPathLen fanout = some L)
    (s : Str) (hs : IsDenseId s) (p : List ℕ) (hp : toPath s = some p) :
    p.length = L ↔ fanout.toNat ^ (L - 2) ≤ decimalValue s := by
  rw [digitPath_eq fanout toPath h] at hp
  obtain ⟨L', hL', hp'⟩ := digitPathFn_of_parse fanout hf s hs.1 (decimalValue s)
    (parseInt32_decimal s (by rintro rfl; simpa using hs.1) (by rw [hs.1]) hs.2)
  rw [hp, Option.some.injEq] at hp'
  rw [hL, Option.some.injEq] at hL'
  subst hL'
  obtain ⟨L'', hL'', hL1, hL2, -⟩ := digitPathLenLoop_spec fanout.toNat hf 29 1 (by omega)
  rw [digitPathLen, hL'', Option.some.injEq] at hL
  subst hL
  have hv := decimalValue_lt s hs.2
  rw [hs.1] at hv
  have hlen : (fanout.toNat.digits (decimalValue s)).length ≤ L'' := by
    rw [Nat.digits_length_le_iff hf]; omega
  have hL2' : 2 ≤ L'' := by
    by_contra hc
    have : L'' = 1 := by omega
    rw [this, pow_one] at hL2
    have := fanout.toNat_lt
    omega
  have hcut := Nat.lt_digits_length_iff (b := fanout.toNat) (k := L'' - 2) hf (decimalValue s)
  rw [← hcut, hp']
  split_ifs with hne
  · rw [List.length_append, List.length_singleton]; omega
  · omega

/-- C31 is violated for every supported fan-out: `000000000` is mapped to a single component, which is a
proper prefix of the path of the identifier of the number `fanout`, although the tree's depth is at
least 2.  A value stored at the one lies above the value stored at the other. -/
theorem C31_violated (fanout : UInt16) (toPath : Str → Option (List ℕ))
    (h : digitPath fanout = some toPath) (hf : 2 ≤ fanout.toNat) :
    ∃ L, digitPathLen fanout = some L ∧ 2 ≤ L ∧ toPath (List.replicate 9 '0') = some [0] ∧
      ∀ s, IsDenseId s → decimalValue s = fanout.toNat → ∃ rest, rest ≠ [] ∧ toPath s = some (0 :: rest) := by
  obtain ⟨L, hL, hL1, hL2, -⟩ := digitPathLenLoop_spec fanout.toNat hf 29 1 (by omega)
  have hL2' : 2 ≤ L := by
    by_contra hc
    have : L = 1 := by omega
    rw [this, pow_one] at hL2
    have := fanout.toNat_lt
    omega
  refine ⟨L, hL, hL2', (C30_negative_numbers_alias_zero fanout toPath h hf (List.replicate 8 '0') (by simp)
    (by unfold IsDecimal; decide)).2, ?_⟩
  intro s hs hv
  rw [digitPath_eq fanout toPath h]
  obtain ⟨L', -, hp⟩ := digitPathFn_of_parse fanout hf s hs.1 fanout.toNat
    (by rw [parseInt32_decimal s (by rintro rfl; simpa using hs.1) (by rw [hs.1]) hs.2, hv])
  have hd : fanout.toNat.digits fanout.toNat = [0, 1] := by
    rw [Nat.digits_def' hf (by omega), Nat.mod_self, Nat.div_self (by omega)]
    rw [Nat.digits_of_lt _ 1 (by omega) (by omega)]
  rw [hp, hd]
  split_ifs
  · exact ⟨[1, 0], by simp, rfl⟩
  · exact ⟨[1], by simp, rfl⟩

/-- The premises of `C31_violated` are met by fan-out 7: identifier `000000007` has path `0.1.0`. -/
example : ∃ toPath, digitPath 7 = some toPath ∧ toPath "000000000".toList = some [0] ∧
    toPath "000000007".toList = some [0, 1, 0] ∧ digitPathLen 7 = some 11 := by
  have hto : (7 : UInt16).toNat = 7 := rfl
  obtain ⟨toPath, h⟩ := (C30_supported_fanouts 7).2 ⟨3, by norm_num, by norm_num, by rw [hto]; norm_num⟩
  have hL : digitPathLen 7 = some 11 := by
    rw [digitPathLen, hto]
    iterate 10 rw [digitPathLenLoop, if_neg (by norm_num)]
    rw [digitPathLenLoop, if_pos (by norm_num)]
  have hd : (7 : ℕ).digits 7 = [0, 1] := by norm_num
  refine ⟨toPath, h, (C30_negative_numbers_alias_zero 7 toPath h (by rw [hto]; norm_num)
    (List.replicate 8 '0') (by simp) (by unfold IsDecimal; decide)).2, ?_, hL⟩
  rw [digitPath_eq 7 toPath h]
  obtain ⟨L', hL', hp⟩ := digitPathFn_of_parse 7 (by rw [hto]; norm_num) "000000007".toList (by decide) 7
    (by
      rw [parseInt32_decimal _ (by decide) (by decide) (by unfold IsDecimal; decide)]
      decide +kernel)
  rw [hL, Option.some.injEq] at hL'
  rw [hp, ← hL', hto, hd]
  rfl

/-! ## C32, C33 -/

/-- C32: the depth of the dense tree is the least number of base-`fanout` digits whose range exceeds 10⁹. -/
theorem C32_digit_path_len (fanout : UInt16) (hf : 2 ≤ fanout.toNat) :
    ∃ L, digitPathLen fanout = some L ∧ 1 ≤ L ∧ 10 ^ 9 < fanout.toNat ^ L ∧
      ∀ j, 1 ≤ j → 10 ^ 9 < fanout.toNat ^ j → L ≤ j := by
  obtain ⟨L, hL, h1, h2, h3⟩ := digitPathLenLoop_spec fanout.toNat hf 29 1 (by omega)
  refine ⟨L, hL, h1, h2, fun j hj hj2 => ?_⟩
  by_contra hc
  have := h3 j hj (by omega)
  omega

/-- C32: for the fan-outs 0 and 1 it never returns. -/
theorem C32_digit_path_len_diverges (fanout : UInt16) (hf : fanout.toNat ≤ 1) : digitPathLen fanout = none :=
  digitPathLenLoop_small _ hf _

/-- C33, the part that holds: for every non-zero input `IsPowerOfTwo` returns, and returns true exactly for
`2, 4, …, 32768`.  Missing for C33: the input 0 (see `C33_violated`). -/
theorem C33_decides_powers_of_two_partial (n : UInt16) (hn : n ≠ 0) :
    ∃ b, isPowerOfTwo n = some b ∧ (b = true ↔ ∃ k, 1 ≤ k ∧ k ≤ 15 ∧ n.toNat = 2 ^ k) := by
  have hn0 : 0 < n.toNat := by
    rcases Nat.eq_zero_or_pos n.toNat with h | h
    · exact absurd (UInt16.toNat_inj.1 (by rw [h]; rfl)) hn
    · exact h
  have hret : ∃ b, isPowerOfTwo n = some b := by
    unfold isPowerOfTwo
    split_ifs
    · exact ⟨_, rfl⟩
    · obtain ⟨b, hb, -⟩ := isPowerOfTwoLoop_pos n.toNat hn0
      exact ⟨b, hb⟩
  obtain ⟨b, hb⟩ := hret
  refine ⟨b, hb, ?_⟩
  have := isPowerOfTwo_eq_true_iff n
  rw [hb, Option.some.injEq] at this
  rw [this]
  constructor
  · rintro ⟨k, h1, h2⟩
    refine ⟨k, h1, ?_, h2⟩
    by_contra hc
    have h3 : 2 ^ 16 ≤ 2 ^ k := Nat.pow_le_pow_right (by norm_num) (by omega)
    have := n.toNat_lt
    omega
  · rintro ⟨k, h1, -, h2⟩
    exact ⟨k, h1, h2⟩

/-- C33 is violated: on input 0 the loop never returns. -/
theorem C33_violated : isPowerOfTwo 0 = none := by
  unfold isPowerOfTwo
  rw [if_neg (by decide)]
  exact isPowerOfTwoLoop_zero

/-- The input 0 is reached from the API: the fan-out 65535. -/
theorem C33_reached_by_fanout_65535 (E : Curve G1 G2 GT) :
    digitPath 65535 = none ∧ hexId2Path E 65535 = none ∧ isPowerOfTwo (65535 + 1) = none := by
  have h : isPowerOfTwo (65535 + 1) = none := C33_violated
  refine ⟨?_, ?_, h⟩
  · unfold digitPath; rw [h]; rfl
  · unfold hexId2Path; rw [h]; rfl

end PoL.Props
