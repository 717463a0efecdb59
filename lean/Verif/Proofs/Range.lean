import Verif.Proofs.Bits
import Verif.Spec.Challenges

/-!
# Helper lemmas about range proofs (`bp/range.go`)
-/

set_option linter.unusedSectionVars false

namespace PoL

variable {G1 G2 GT : Type} [AddCommGroup G1] [Module Zr G1] [AddCommGroup G2] [Module Zr G2]
  [AddCommGroup GT] [Module Zr GT]

theorem powerSeriesLoop_eq (y : Zr) : ∀ (n : ℕ) (c : Zr),
    powerSeriesLoop y n c = (List.range n).map fun i => c * y ^ i
  | 0, c => by simp [powerSeriesLoop]
  | n + 1, c => by
    rw [powerSeriesLoop, powerSeriesLoop_eq y n, List.range_succ_eq_map]
    simp only [List.map_cons, pow_zero, mul_one, List.map_map, List.cons.injEq, true_and]
    apply List.map_congr_left
    intro i _
    simp only [Function.comp, Nat.succ_eq_add_one, pow_succ]
    ring

theorem powerSeries_eq (n : ℕ) (y : Zr) : powerSeries n y = (List.range n).map fun i => y ^ i := by
  rw [powerSeries, powerSeriesLoop_eq]; simp

@[simp] theorem powerSeries_length (n : ℕ) (y : Zr) : (powerSeries n y).length = n := by
  simp [powerSeries_eq]

namespace BP

@[simp] theorem expand_length (x : Zr) (n : ℕ) : (expand x n).length = n := by simp [expand]

theorem expand_zero (n : ℕ) : expand (intToZr 0) n = List.replicate n 0 := by
  rw [expand, intToZr_zero]

theorem expand_one (n : ℕ) : expand (intToZr 1) n = List.replicate n 1 := by
  rw [expand, intToZr_one]

theorem dot_mul_right (v w : List Zr) (x : Zr) : dot v (Vec.mul w x) = x * dot v w := by
  rw [dot_comm, Vec.dot_mul, dot_comm, smul_eq_mul]

theorem dot_one_left (N : ℕ) (Y : List Zr) (h : Y.length = N) : dot (List.replicate N (1 : Zr)) Y = Y.sum := by
  rw [← h, dot_replicate_one]

/-- `<v, X ‖ 0> = <v[:N], X>`. -/
theorem dot_append_zeros (v X : List Zr) (N n : ℕ) (hv : N ≤ v.length) (hX : X.length = N) :
    dot v (X ++ List.replicate n 0) = dot (v.take N) X := by
  conv_lhs => rw [← List.take_append_drop N v]
  rw [dot_append _ _ _ _ (by simp [hX, hv]), dot_zero_right, add_zero]

theorem zipWith_had_length {v w : List Zr} {N : ℕ} (hv : v.length = N) (hw : w.length = N) :
    (List.zipWith (· * ·) v w).length = N := by simp [hv, hw]

/-- The constant term: `<a', b'>` for bit vector `B`, complement `C`, powers `Y`. -/
theorem range_constant_term (N n : ℕ) (B C Y D d2 w : List Zr) (y1 : Zr) (hB : B.length = N)
    (hC : C.length = N) (hY : Y.length = N) (hD : D.length = N) (hd2 : d2.length = n) (hw : w.length = n) :
    dot (List.zipWith (· + ·) (B ++ w) (Vec.mul (List.replicate N 1) y1 ++ List.replicate n 0))
      (List.zipWith (· + ·) (List.zipWith (· + ·) (Vec.mul (D ++ d2) (y1 * y1))
        (Vec.mul (Y ++ List.replicate n 0) y1)) (List.zipWith (· * ·) C Y ++ List.replicate n 0))
      = y1 * y1 * dot (B ++ w) (D ++ d2) + y1 * (dot B Y + dot C Y) + dot B (List.zipWith (· * ·) C Y)
        + y1 * y1 * y1 * D.sum + y1 * y1 * Y.sum := by
  have hCY : (List.zipWith (· * ·) C Y).length = N := zipWith_had_length hC hY
  have e1 : dot (List.replicate N (1 : Zr) ++ List.replicate n 0) (D ++ d2) = D.sum := by
    rw [dot_append _ _ _ _ (by simp [hD]), dot_replicate_zero, add_zero, dot_one_left N D hD]
  have e2 : dot (List.replicate N (1 : Zr) ++ List.replicate n (0 : Zr)) (Y ++ List.replicate n (0 : Zr)) = Y.sum := by
    rw [dot_append _ _ _ _ (by simp [hY]), dot_replicate_zero, add_zero, dot_one_left N Y hY]
  have e3 : dot (List.replicate N (1 : Zr) ++ List.replicate n (0 : Zr))
      (List.zipWith (· * ·) C Y ++ List.replicate n (0 : Zr)) = dot C Y := by
    rw [dot_append _ _ _ _ (by simp [hCY]), dot_replicate_zero, add_zero, dot_one_left N _ hCY]
    rfl
  have e4 : dot (B ++ w) (Y ++ List.replicate n (0 : Zr)) = dot B Y := by
    rw [dot_append _ _ _ _ (by rw [hB, hY]), dot_zero_right, add_zero]
  have e5 : dot (B ++ w) (List.zipWith (· * ·) C Y ++ List.replicate n (0 : Zr))
      = dot B (List.zipWith (· * ·) C Y) := by
    rw [dot_append _ _ _ _ (by rw [hB, hCY]), dot_zero_right, add_zero]
  have hm : Vec.mul (List.replicate N 1) y1 ++ List.replicate n 0
      = Vec.mul (List.replicate N 1 ++ List.replicate n 0) y1 := by simp [Vec.mul]
  rw [hm, dot_add_left _ _ _ (by simp [hB, hw]),
    dot_add_right _ _ _ (by simp [hD, hd2, hY, hC]), dot_add_right _ _ _ (by simp [hD, hd2, hY]),
    dot_add_right _ _ _ (by simp [hD, hd2, hY, hC]), dot_add_right _ _ _ (by simp [hD, hd2, hY])]
  simp only [Vec.dot_mul, dot_mul_right]
  rw [e1, e2, e3, e4, e5]
  simp only [smul_eq_mul]
  ring

/-- The coefficients of `z` and `z²` in `<a' + z·s, b' + z·(X ‖ 0)>`. -/
theorem range_poly (N n : ℕ) (a' b' s X : List Zr) (z : Zr) (ha : a'.length = N + n)
    (hb : b'.length = N + n) (hs : s.length = N + n) (hX : X.length = N) :
    dot (List.zipWith (· + ·) a' (Vec.mul s z))
      (List.zipWith (· + ·) b' (Vec.mul (X ++ List.replicate n 0) z))
      = dot a' b' + z * (dot (a'.take N) X + dot s b') + z * z * dot (s.take N) X := by
  rw [dot_add_left _ _ _ (by simp [ha, hs]), dot_add_right _ _ _ (by simp [hb, hX]),
    dot_add_right _ _ _ (by simp [hb, hX])]
  simp only [Vec.dot_mul, dot_mul_right]
  rw [dot_append_zeros a' X N n (by omega) hX, dot_append_zeros s X N n (by omega) hX]
  simp only [smul_eq_mul]
  ring

/-- The scaled generators undo the powers: `<q ∘ Y, F'> = <q, F>` for non-zero `y`. -/
theorem dot_scaled_generators (y : Zr) (hy : y ≠ 0) (q : List Zr) (Fs : List G1) (N n : ℕ) (hq : q.length = N)
    (hF : Fs.length = N + n) :
    dot (List.zipWith (· * ·) q (powerSeries N y) ++ List.replicate n 0)
      (List.zipWith (fun x h => x • h) (powerSeries Fs.length y⁻¹) Fs) = dot q (Fs.take N) := by
  conv_lhs => rw [← List.take_append_drop N (List.zipWith (fun x h => x • h) (powerSeries Fs.length y⁻¹) Fs)]
  rw [dot_append _ _ _ _ (by simp [hq, hF]), dot_replicate_zero, add_zero]
  rw [List.take_zipWith, dot_hadamard]
  congr 1
  apply List.ext_getElem (by simp [hF])
  intro i h1 h2
  have hiN : i < N := by simp at h2; omega
  simp only [List.getElem_zipWith, List.getElem_take, powerSeries_eq, List.getElem_map, List.getElem_range,
    smul_smul, ← mul_pow, mul_inv_cancel₀ hy, one_pow, one_smul]

theorem dot_bits_pow (c : Zr) : ∀ (bs : List ℕ) (o : ℕ),
    dot (bs.map fun (b : ℕ) => (b : Zr)) ((List.range bs.length).map fun j => pow2 (j + o) * c)
      = (Nat.ofDigits 2 bs : ℕ) * 2 ^ o * c
  | [], o => by simp
  | b :: bs, o => by
    rw [List.map_cons, List.length_cons, List.range_succ_eq_map, List.map_cons, dot_cons, List.map_map]
    have h : (List.range bs.length).map ((fun j => pow2 (j + o) * c) ∘ Nat.succ)
        = (List.range bs.length).map fun j => pow2 (j + (o + 1)) * c := by
      apply List.map_congr_left
      intro i _
      simp only [Function.comp, Nat.succ_eq_add_one]
      congr 2
      omega
    rw [h, dot_bits_pow c bs (o + 1), Nat.ofDigits_cons]
    simp only [pow2, smul_eq_mul, zero_add, pow_succ]
    push_cast
    ring

/-- The bits of the entries, as scalars. -/
def rangeBits (m : ℕ) (v : List Zr) : List Zr := intsToZr (Vec.vbits v m)

theorem rangeBits_cons (m : ℕ) (a : Zr) (v : List Zr) :
    rangeBits m (a :: v) = (bitsPad m a.val).map (fun (b : ℕ) => (b : Zr)) ++ rangeBits m v := by
  simp [rangeBits, intsToZr, Vec.vbits, bits_eq, intToZr]

theorem rangeBits_length (m : ℕ) : ∀ v : List Zr, (∀ x ∈ v, x.val < 2 ^ m) →
    (rangeBits m v).length = v.length * m
  | [], _ => by simp [rangeBits, intsToZr, Vec.vbits]
  | a :: v, h => by
    rw [rangeBits_cons, List.length_append, List.length_map, bitsPad_length (h a (by simp)),
      rangeBits_length m v (fun x hx => h x (by simp [hx])), List.length_cons]
    ring

theorem rangeBits_zero_one (m : ℕ) (v : List Zr) : ∀ b ∈ rangeBits m v, b = 0 ∨ b = 1 := by
  induction v with
  | nil => simp [rangeBits, intsToZr, Vec.vbits]
  | cons a v ih =>
    rw [rangeBits_cons]
    intro b hb
    rcases List.mem_append.1 hb with hb | hb
    · obtain ⟨k, hk, rfl⟩ := List.mem_map.1 hb
      have := bitsPad_le_one m a.val k hk
      rcases Nat.le_one_iff_eq_zero_or_eq_one.1 this with rfl | rfl <;> simp
    · exact ih b hb

/-- The weights `2^j·f_i`. -/
def rangeD (m : ℕ) (f : List Zr) : List Zr := f.flatMap fun fi => (List.range m).map fun j => pow2 j * fi

theorem rangeD_length (m : ℕ) : ∀ f : List Zr, (rangeD m f).length = f.length * m
  | [] => by simp [rangeD]
  | a :: f => by
    have : rangeD m (a :: f) = ((List.range m).map fun j => pow2 j * a) ++ rangeD m f := by simp [rangeD]
    rw [this, List.length_append, rangeD_length m f, List.length_cons]
    simp; ring

theorem computeD_eq (m : ℕ) (f : List Zr) (x : Zr) :
    computeD f.length m f x = some (rangeD m f ++ Vec.mul f x) := by
  have h : ((List.range f.length).mapM fun i => do
      let fi ← f[i]?
      return (List.range m).map fun j => pow2 j * fi)
      = some (f.map fun fi => (List.range m).map fun j => pow2 j * fi) := by
    have h1 : f.map (fun fi => (List.range m).map fun j => pow2 j * fi)
        = (List.range f.length).map fun i => (List.range m).map fun j => pow2 j * f.getD i 0 := by
      apply List.ext_getElem (by simp)
      intro i h1 h2
      have : i < f.length := by simpa using h1
      simp [List.getD, this]
    rw [h1]
    apply mapM_some
    intro i hi
    have : i < f.length := by simpa using hi
    simp [List.getD, this]
  rw [computeD, h]
  simp [rangeD, List.flatMap_def]

/-- The bits weighted by `2^j·f_i` give `<v,f>`. -/
theorem dot_rangeBits (m : ℕ) : ∀ (v f : List Zr), v.length = f.length → (∀ x ∈ v, x.val < 2 ^ m) →
    dot (rangeBits m v) (rangeD m f) = dot v f
  | [], [], _, _ => by simp [rangeBits, intsToZr, Vec.vbits]
  | a :: v, b :: f, hl, h => by
    have hD : rangeD m (b :: f) = ((List.range m).map fun j => pow2 j * b) ++ rangeD m f := by simp [rangeD]
    have hlen : (bitsPad m a.val).length = m := bitsPad_length (h a (by simp))
    rw [rangeBits_cons, hD, dot_append _ _ _ _ (by simp [hlen]),
      dot_rangeBits m v f (by simpa using hl) (fun x hx => h x (by simp [hx])), dot_cons]
    have := dot_bits_pow b (bitsPad m a.val) 0
    rw [hlen, bitsPad_value] at this
    simp only [add_zero, pow_zero, mul_one, ZMod.natCast_val, ZMod.cast_id', id_eq] at this
    rw [this, smul_eq_mul]

variable [DecidableEq G1]

theorem randGenVec_zero (E : Curve G1 G2 GT) (c : String) : ∃ g, (randGenVec E 1 c)[0]? = some g := by
  simp [randGenVec]

theorem rangeRdxPP_eq (E : Curve G1 G2 GT) (pp : RPPP G1) :
    ∃ d U, rangeRdxPP E pp = some { digest := d, G := pp.Gs, H := [], U := U } := by
  obtain ⟨U, hU⟩ := randGenVec_zero E "U range proof"
  obtain ⟨d, hd⟩ := setupDigest_isSome E { digest := [], G := pp.Gs, H := [], U := U } (Or.inl rfl)
  exact ⟨d, U, by rw [rangeRdxPP, hU]; exact hd⟩

theorem rangeIpaPP_eq (E : Curve G1 G2 GT) (pp : RPPP G1) (Fp : List G1) (h : pp.Hs.length ≤ Fp.length) :
    ∃ d U, rangeIpaPP E pp Fp = some { digest := d, G := pp.Hs, H := Fp, U := U } := by
  obtain ⟨U, hU⟩ := randGenVec_zero E "u"
  obtain ⟨d, hd⟩ := setupDigest_isSome E { digest := [], G := pp.Hs, H := Fp, U := U } (Or.inr h)
  exact ⟨d, U, by rw [rangeIpaPP, hU]; exact hd⟩

theorem gv_mulV_sum_slice {g : List G1} {v : List Zr} {N : ℕ} (hg : N ≤ g.length) (hv : v.length = N) (hN : 0 < N) :
    Gv.mulV (g.take N) v = some (List.zipWith (fun x h => x • h) v (g.take N)) ∧
    Gv.sum (List.zipWith (fun x h => x • h) v (g.take N)) = some (dot v (g.take N)) := by
  refine ⟨Gv.mulV_eq (by simp [hg, hv]), Gv.sum_zipWith (by simp [hg, hv]) ?_⟩
  intro h
  have : (g.take N).length = N := by simp [hg]
  rw [h] at this
  simp at this
  omega

theorem gv_mulV_sum {g : List G1} {v : List Zr} {N : ℕ} (hg : g.length = N) (hv : v.length = N) (hN : 0 < N) :
    Gv.mulV g v = some (List.zipWith (fun x h => x • h) v g) ∧
    Gv.sum (List.zipWith (fun x h => x • h) v g) = some (dot v g) := by
  refine ⟨Gv.mulV_eq (by omega), Gv.sum_zipWith (by omega) ?_⟩
  rintro rfl
  simp at hg
  omega

/-- The sizes for which the range proof works. -/
structure RPPP.Sized (pp : RPPP G1) (k : ℕ) : Prop where
  k1 : 1 ≤ k
  k2 : k ≤ 15
  gs : pp.Gs.length = 2 ^ k
  hs : pp.Hs.length = 2 ^ k * 63 + 2 ^ k
  fs : pp.Fs.length = 2 ^ k * 63 + 2 ^ k

/-- The prover step by step: if each partial operation returns, so does the prover. -/
theorem proveRangeUnchecked_steps (E : Curve G1 G2 GT) (pp : RPPP G1) (rnd : RangeRand) (V : G1) (v : List Zr)
    (r : Zr) (n : ℕ) (hn : pp.Gs.length = n) {vBits one zeros wC wRdx xs f d Y y1v a' b₁ b' wY X aT sT a b : List Zr}
    {g1 h1 f1 h2 f2 FT Fp : List G1} {sg1 sh1 sf1 sh2 sf2 : G1}
    {x u y0 y1 z c1 c1' c2 c : Zr} {rdx ipaPP : PP G1} {Δ : List (G1 × G1 × G1)} {arg : InnerProdArgument G1}
    {π : InnerProductProof G1}
    (hone : expand (intToZr 1) (n * 63) = one) (hzeros : expand (intToZr 0) n = zeros)
    (e0 : intsToZr (Vec.vbits v 63) ++ rnd.w = vBits)
    (e1 : Gv.mulV pp.Gs rnd.w = some g1) (e2 : Gv.sum g1 = some sg1)
    {bT : List Zr} (e3 : sliceTo vBits (n * 63) = some bT) (e4 : Vec.sub one bT = some wC)
    (e5 : Gv.mulV pp.Hs vBits = some h1) (e6 : Gv.sum h1 = some sh1)
    (e7 : sliceTo pp.Fs (n * 63) = some FT) (e8 : Gv.mulV FT wC = some f1) (e9 : Gv.sum f1 = some sf1)
    {W Q R C1 C2 : G1} {γ : Zr} (hW : rnd.rPrime • pp.F + sg1 = W) (hQ : rnd.ν • pp.F + sh1 + sf1 = Q)
    (e10 : rangeProofRO1 E pp V W Q = some x)
    (hγ : negZr (r + x * rnd.rPrime) = γ)
    (e11 : rangeRdxPP E pp = some rdx) (e12 : Vec.add v (Vec.mul rnd.w x) = some wRdx)
    (e13 : iterativeReduce E rdx wRdx (γ • pp.F + V + x • W) = some (Δ, xs, u))
    (e14 : rangeF n (Vec.reverse xs) = some f) (e15 : computeD n 63 f x = some d)
    (e16 : Gv.mulV pp.Hs rnd.s = some h2) (e17 : Gv.sum h2 = some sh2)
    (e18 : Gv.mulV FT rnd.t = some f2) (e19 : Gv.sum f2 = some sf2)
    (hR : rnd.η • pp.F + sh2 + sf2 = R)
    (e20 : rangeY E pp Q R x 0 = some y0) (e21 : rangeY E pp Q R x 1 = some y1)
    (hY : powerSeries (n * 63) y0 = Y) (hy1v : Vec.mul one y1 = y1v)
    (e22 : Vec.add vBits (Vec.concat y1v zeros) = some a')
    (e23 : Vec.add (Vec.mul d (y1 * y1)) (Vec.mul (Vec.concat Y zeros) y1) = some b₁)
    (e24 : Vec.hadamardProd wC Y = some wY) (e25 : Vec.add b₁ (Vec.concat wY zeros) = some b')
    (e26 : sliceTo a' (n * 63) = some aT) (e27 : Vec.hadamardProd Y rnd.t = some X)
    (e28 : Vec.innerProd aT X = some c1) (e29 : Vec.innerProd rnd.s b' = some c1')
    (e30 : sliceTo rnd.s (n * 63) = some sT) (e31 : Vec.innerProd sT X = some c2)
    (hC1 : (c1 + c1') • pp.G + rnd.τ1 • pp.H = C1) (hC2 : c2 • pp.G + rnd.τ2 • pp.H = C2)
    (e32 : computeZ E pp C1 C2 Q R (zrBytes y0) (zrBytes y1) = some z)
    (e33 : Gv.mulV pp.Fs (powerSeries pp.Fs.length y0⁻¹) = some Fp)
    (e34 : Vec.add a' (Vec.mul rnd.s z) = some a)
    (e35 : Vec.add b' (Vec.mul (Vec.concat X zeros) z) = some b)
    (e36 : Vec.innerProd a b = some c) (e37 : rangeIpaPP E pp Fp = some ipaPP)
    (e38 : newInnerProdArgument ipaPP a b = some arg) (e39 : arg.prove E = some π) :
    proveRangeUnchecked E pp rnd V v r = some
        ({ ρ := negZr (rnd.ν + rnd.η * z), τ := rnd.τ1 * z + rnd.τ2 * (z * z), C1 := C1, C2 := C2,
           γ := γ, c := c, Δ := Δ, u := u, Q := Q, R := R, W := W, ipp := π }, ipaPP) := by
  subst hn hone hzeros e0 hW hQ hγ hR hY hy1v hC1 hC2
  unfold proveRangeUnchecked
  refine obind_step e1 (obind_step e2 (obind_step e3 (obind_step e4 (obind_step e5 (obind_step e6
    (obind_step e7 (obind_step e8 (obind_step e9 (obind_step e10 (obind_step e11 (obind_step e12
    (obind_step e13 ?_))))))))))))
  refine obind_step e14 (obind_step e15 (obind_step e16 (obind_step e17 (obind_step e7 (obind_step e18
    (obind_step e19 (obind_step e20 (obind_step e21 (obind_step e22 (obind_step e23 (obind_step e24
    (obind_step e25 ?_))))))))))))
  refine obind_step e26 (obind_step e27 (obind_step e28 (obind_step e29 (obind_step e30 (obind_step e27
    (obind_step e31 (obind_step e32 (obind_step e33 (obind_step e34 (obind_step e27 (obind_step e35
    (obind_step e36 (obind_step e37 (obind_step e38 (obind_step e39 rfl)))))))))))))))

/-- What the prover computes. -/
theorem proveRangeUnchecked_eq (E : Curve G1 G2 GT) (hE : E.Lawful) (pp : RPPP G1) (k : ℕ) (hpp : pp.Sized k)
    (rnd : RangeRand) (hrnd : rnd.WellFormed (2 ^ k)) (V : G1) (v : List Zr) (hv : v.length = 2 ^ k)
    (hrange : ∀ x ∈ v, x.val < 2 ^ 63) (r : Zr) :
    ∃ (W Q R C1 C2 : G1) (x y0 y1 z c c1 c2 u : Zr) (rdx ipaPP : PP G1) (Δ : List (G1 × G1 × G1))
      (xs f d B wc a b a' b' : List Zr) (Fp : List G1) (π : InnerProductProof G1),
      W = rnd.rPrime • pp.F + dot rnd.w pp.Gs ∧
      B = rangeBits 63 v ∧ wc = List.zipWith (· - ·) (List.replicate (2 ^ k * 63) 1) B ∧
      Q = rnd.ν • pp.F + dot (B ++ rnd.w) pp.Hs + dot wc (pp.Fs.take (2 ^ k * 63)) ∧
      rangeProofRO1 E pp V W Q = some x ∧
      rangeRdxPP E pp = some rdx ∧ rdx.G = pp.Gs ∧
      iterativeReduce E rdx (List.zipWith (· + ·) v (Vec.mul rnd.w x))
        (negZr (r + x * rnd.rPrime) • pp.F + V + x • W) = some (Δ, xs, u) ∧
      rangeF (2 ^ k) xs.reverse = some f ∧ f.length = 2 ^ k ∧ d = rangeD 63 f ++ Vec.mul f x ∧
      u = dot (List.zipWith (· + ·) v (Vec.mul rnd.w x)) f ∧
      R = rnd.η • pp.F + dot rnd.s pp.Hs + dot rnd.t (pp.Fs.take (2 ^ k * 63)) ∧
      rangeY E pp Q R x 0 = some y0 ∧ rangeY E pp Q R x 1 = some y1 ∧
      a' = List.zipWith (· + ·) (B ++ rnd.w) (Vec.mul (List.replicate (2 ^ k * 63) 1) y1 ++ List.replicate (2 ^ k) 0) ∧
      b' = List.zipWith (· + ·) (List.zipWith (· + ·) (Vec.mul d (y1 * y1))
        (Vec.mul (powerSeries (2 ^ k * 63) y0 ++ List.replicate (2 ^ k) 0) y1))
        (List.zipWith (· * ·) wc (powerSeries (2 ^ k * 63) y0) ++ List.replicate (2 ^ k) 0) ∧
      c1 = dot (a'.take (2 ^ k * 63)) (List.zipWith (· * ·) (powerSeries (2 ^ k * 63) y0) rnd.t) + dot rnd.s b' ∧
      c2 = dot (rnd.s.take (2 ^ k * 63)) (List.zipWith (· * ·) (powerSeries (2 ^ k * 63) y0) rnd.t) ∧
      C1 = c1 • pp.G + rnd.τ1 • pp.H ∧ C2 = c2 • pp.G + rnd.τ2 • pp.H ∧
      computeZ E pp C1 C2 Q R (zrBytes y0) (zrBytes y1) = some z ∧
      Gv.mulV pp.Fs (powerSeries pp.Fs.length y0⁻¹) = some Fp ∧
      Fp = List.zipWith (fun x h => x • h) (powerSeries pp.Fs.length y0⁻¹) pp.Fs ∧
      a = List.zipWith (· + ·) a' (Vec.mul rnd.s z) ∧
      b = List.zipWith (· + ·) b' (Vec.mul (List.zipWith (· * ·) (powerSeries (2 ^ k * 63) y0) rnd.t
        ++ List.replicate (2 ^ k) 0) z) ∧
      a.length = 2 ^ k * 63 + 2 ^ k ∧ b.length = 2 ^ k * 63 + 2 ^ k ∧
      c = dot a b ∧
      rangeIpaPP E pp Fp = some ipaPP ∧ ipaPP.G = pp.Hs ∧ ipaPP.H = Fp ∧
      (InnerProdArgument.prove E { pp := ipaPP, a := a, b := b, C := dot a b, P := dot a pp.Hs + dot b Fp }) = some π ∧
      proveRangeUnchecked E pp rnd V v r = some
        ({ ρ := negZr (rnd.ν + rnd.η * z), τ := rnd.τ1 * z + rnd.τ2 * (z * z), C1 := C1, C2 := C2,
           γ := negZr (r + x * rnd.rPrime), c := c, Δ := Δ, u := u, Q := Q, R := R, W := W, ipp := π }, ipaPP) := by
  obtain ⟨hk1, hk2, hGs, hHs, hFs⟩ := hpp
  obtain ⟨hw, hs, ht⟩ := hrnd
  have hn : 0 < 2 ^ k := by positivity
  have hN : 0 < 2 ^ k * 63 := by positivity
  -- bits
  set B := rangeBits 63 v with hB
  have lB : B.length = 2 ^ k * 63 := by rw [hB, rangeBits_length 63 v hrange, hv]
  have lvb : (B ++ rnd.w).length = 2 ^ k * 63 + 2 ^ k := by simp [lB, hw]
  set wc := List.zipWith (· - ·) (List.replicate (2 ^ k * 63) 1) B with hwc
  have lwc : wc.length = 2 ^ k * 63 := by simp [hwc, lB]
  set W := rnd.rPrime • pp.F + dot rnd.w pp.Gs with hW
  set Q := rnd.ν • pp.F + dot (B ++ rnd.w) pp.Hs + dot wc (pp.Fs.take (2 ^ k * 63)) with hQ
  obtain ⟨x, hx⟩ := fieldElementFromBytes_isSome
    (hE.sha_len (pp.getDigest E ++ E.g1Bytes V ++ E.g1Bytes W ++ E.g1Bytes Q))
  have hx' : rangeProofRO1 E pp V W Q = some x := hx
  obtain ⟨rdxd, rdxU, hrdx⟩ := rangeRdxPP_eq E pp
  have lwr : (List.zipWith (· + ·) v (Vec.mul rnd.w x)).length = 2 ^ k := by simp [hv, hw]
  obtain ⟨Δ, xs, u, hred, -, lxs, hu, -⟩ := iterReduceLoop_complete E hE rdxd k pp.Gs
    (List.zipWith (· + ·) v (Vec.mul rnd.w x)) (negZr (r + x * rnd.rPrime) • pp.F + V + x • W) [] []
    hGs lwr
  have hred' : iterativeReduce E { digest := rdxd, G := pp.Gs, H := [], U := rdxU }
      (List.zipWith (· + ·) v (Vec.mul rnd.w x))
      (negZr (r + x * rnd.rPrime) • pp.F + V + x • W) = some (Δ, xs, u) := by
    rw [iterativeReduce, hGs, isPowerOfTwo_pow k hk1 hk2]
    simpa using hred
  have lrev : xs.reverse.length = k := by simp [lxs]
  have hf := rangeF_eq xs.reverse (by intro h; rw [h] at lrev; simp at lrev; omega)
  rw [lrev] at hf
  set f := (List.range (2 ^ k)).map (bitMonomial xs.reverse) with hfdef
  have lf : f.length = 2 ^ k := by simp [hfdef]
  have hfm : f = monomials xs := by rw [monomials_eq, lxs]
  have hd := computeD_eq 63 f x
  rw [lf] at hd
  set d := rangeD 63 f ++ Vec.mul f x with hddef
  have ld : d.length = 2 ^ k * 63 + 2 ^ k := by simp [hddef, rangeD_length, lf]
  set R := rnd.η • pp.F + dot rnd.s pp.Hs + dot rnd.t (pp.Fs.take (2 ^ k * 63)) with hR
  obtain ⟨y0, hy0⟩ := fieldElementFromBytes_isSome
    (hE.sha_len (E.g1Bytes Q ++ E.g1Bytes R ++ ([0] ++ pp.getDigest E ++ zrBytes x)))
  have hy0' : rangeY E pp Q R x 0 = some y0 := hy0
  obtain ⟨y1, hy1⟩ := fieldElementFromBytes_isSome
    (hE.sha_len (E.g1Bytes Q ++ E.g1Bytes R ++ ([1] ++ pp.getDigest E ++ zrBytes x)))
  have hy1' : rangeY E pp Q R x 1 = some y1 := hy1
  set Y := powerSeries (2 ^ k * 63) y0 with hY
  have lY : Y.length = 2 ^ k * 63 := by simp [hY]
  set a' := List.zipWith (· + ·) (B ++ rnd.w)
    (Vec.mul (List.replicate (2 ^ k * 63) 1) y1 ++ List.replicate (2 ^ k) 0) with ha'
  have la' : a'.length = 2 ^ k * 63 + 2 ^ k := by simp [ha', lB, hw]
  set b₁ := List.zipWith (· + ·) (Vec.mul d (y1 * y1)) (Vec.mul (Y ++ List.replicate (2 ^ k) 0) y1) with hb₁
  have lb₁ : b₁.length = 2 ^ k * 63 + 2 ^ k := by simp [hb₁, ld, lY]
  set b' := List.zipWith (· + ·) b₁ (List.zipWith (· * ·) wc Y ++ List.replicate (2 ^ k) 0) with hb'
  have lb' : b'.length = 2 ^ k * 63 + 2 ^ k := by simp [hb', lb₁, lwc, lY]
  set X := List.zipWith (· * ·) Y rnd.t with hX
  have lX : X.length = 2 ^ k * 63 := by simp [hX, lY, ht]
  set c1 := dot (a'.take (2 ^ k * 63)) X + dot rnd.s b' with hc1
  set c2 := dot (rnd.s.take (2 ^ k * 63)) X with hc2
  obtain ⟨z, hz⟩ := fieldElementFromBytes_isSome (hE.sha_len (E.g1Bytes Q ++ E.g1Bytes R ++
    (pp.getDigest E ++ E.g1Bytes (c1 • pp.G + rnd.τ1 • pp.H) ++ E.g1Bytes (c2 • pp.G + rnd.τ2 • pp.H)
      ++ zrBytes y0 ++ zrBytes y1)))
  have hz' : computeZ E pp (c1 • pp.G + rnd.τ1 • pp.H) (c2 • pp.G + rnd.τ2 • pp.H) Q R (zrBytes y0)
    (zrBytes y1) = some z := hz
  set Fp := List.zipWith (fun x h => x • h) (powerSeries pp.Fs.length y0⁻¹) pp.Fs with hFp
  have lFp : Fp.length = 2 ^ k * 63 + 2 ^ k := by simp [hFp, hFs]
  have hFp' : Gv.mulV pp.Fs (powerSeries pp.Fs.length y0⁻¹) = some Fp := Gv.mulV_eq (by simp)
  set a := List.zipWith (· + ·) a' (Vec.mul rnd.s z) with ha
  set b := List.zipWith (· + ·) b' (Vec.mul (X ++ List.replicate (2 ^ k) 0) z) with hb
  have la : a.length = 2 ^ k * 63 + 2 ^ k := by simp [ha, la', hs]
  have lb : b.length = 2 ^ k * 63 + 2 ^ k := by simp [hb, lb', lX]
  obtain ⟨ipad, ipaU, hipa⟩ := rangeIpaPP_eq E pp Fp (by omega)
  set ipaPP : PP G1 := { digest := ipad, G := pp.Hs, H := Fp, U := ipaU } with hipaPP
  have hpow : 2 ^ k * 63 + 2 ^ k = 2 ^ (k + 6) := by rw [pow_add]; omega
  obtain ⟨π, x', hπ, -⟩ := prove_verify E hE ipaPP a b (dot a b) (dot a pp.Hs + dot b Fp) (k + 6)
    (by rw [la, hpow]) (by rw [lb, hpow]) (by rw [hipaPP]; dsimp only; omega)
    (by rw [hipaPP]; dsimp only; omega)
  have hipaArg : newInnerProdArgument ipaPP a b
      = some { pp := ipaPP, a := a, b := b, C := dot a b, P := dot a pp.Hs + dot b Fp } := by
    rw [newInnerProdArgument, Vec.innerProd_eq (by omega), BP.commit_eq ipaPP a b (by omega)
      (by intro h; rw [h, List.length_nil] at la; omega) (by simp only [hipaPP]; omega) (by simp only [hipaPP]; omega)]
    rfl
  refine ⟨W, Q, R, c1 • pp.G + rnd.τ1 • pp.H, c2 • pp.G + rnd.τ2 • pp.H, x, y0, y1, z, dot a b, c1, c2, u,
    _, ipaPP, Δ, xs, f, d, B, wc, a, b, a', b', Fp, π, rfl, rfl, rfl, rfl, hx', hrdx, rfl, hred', hf, lf, rfl,
    by rw [hu, hfm], rfl, hy0', hy1', rfl, rfl, rfl, rfl, rfl, rfl, hz', hFp', rfl, rfl, rfl, la, lb, rfl,
    hipa, rfl, rfl, hπ, ?_⟩
  obtain ⟨w1, w2⟩ := gv_mulV_sum hGs hw hn
  obtain ⟨q1, q2⟩ := gv_mulV_sum hHs lvb (by omega)
  obtain ⟨q3, q4⟩ := gv_mulV_sum_slice (g := pp.Fs) (v := wc) (N := 2 ^ k * 63) (by omega) lwc hN
  obtain ⟨r1, r2⟩ := gv_mulV_sum hHs hs (by omega)
  obtain ⟨r3, r4⟩ := gv_mulV_sum_slice (g := pp.Fs) (v := rnd.t) (N := 2 ^ k * 63) (by omega) ht hN
  have htake : (B ++ rnd.w).take (2 ^ k * 63) = B := by rw [← lB]; simp
  have s1 : sliceTo (B ++ rnd.w) (2 ^ k * 63) = some B :=
    (sliceTo_eq (by omega)).trans (congrArg some htake)
  have s2 : sliceTo pp.Fs (2 ^ k * 63) = some (pp.Fs.take (2 ^ k * 63)) := sliceTo_eq (by omega)
  have s3 : sliceTo a' (2 ^ k * 63) = some (a'.take (2 ^ k * 63)) := sliceTo_eq (by omega)
  have s4 : sliceTo rnd.s (2 ^ k * 63) = some (rnd.s.take (2 ^ k * 63)) := sliceTo_eq (by omega)
  have v1 : Vec.sub (List.replicate (2 ^ k * 63) 1) B = some wc := Vec.sub_eq (by simp [lB])
  have v2 : Vec.add (B ++ rnd.w) (Vec.concat (Vec.mul (List.replicate (2 ^ k * 63) 1) y1)
      (List.replicate (2 ^ k) 0)) = some a' := Vec.add_eq (by simp [lB, hw, Vec.concat])
  have v3 : Vec.add (Vec.mul d (y1 * y1)) (Vec.mul (Vec.concat Y (List.replicate (2 ^ k) 0)) y1) = some b₁ :=
    Vec.add_eq (by simp [ld, lY, Vec.concat])
  have v4 : Vec.hadamardProd wc Y = some (List.zipWith (· * ·) wc Y) :=
    Vec.hadamardProd_eq (lwc.trans lY.symm)
  have v5 : Vec.add b₁ (Vec.concat (List.zipWith (· * ·) wc Y) (List.replicate (2 ^ k) 0)) = some b' :=
    Vec.add_eq (by simp [lb₁, lwc, lY, Vec.concat])
  have v6 : Vec.hadamardProd Y rnd.t = some X := Vec.hadamardProd_eq (lY.trans ht.symm)
  have v7 : Vec.innerProd (a'.take (2 ^ k * 63)) X = some (dot (a'.take (2 ^ k * 63)) X) :=
    Vec.innerProd_eq (by simp [la', lX])
  have v8 : Vec.innerProd rnd.s b' = some (dot rnd.s b') := Vec.innerProd_eq (hs.trans lb'.symm)
  have v9 : Vec.innerProd (rnd.s.take (2 ^ k * 63)) X = some c2 := Vec.innerProd_eq (by simp [hs, lX])
  have v10 : Vec.add a' (Vec.mul rnd.s z) = some a := Vec.add_eq (by simp [la', hs])
  have v11 : Vec.add b' (Vec.mul (Vec.concat X (List.replicate (2 ^ k) 0)) z) = some b :=
    Vec.add_eq (by simp [lb', lX, Vec.concat])
  have v12 : Vec.innerProd a b = some (dot a b) := Vec.innerProd_eq (la.trans lb.symm)
  have v13 : Vec.add v (Vec.mul rnd.w x) = some (List.zipWith (· + ·) v (Vec.mul rnd.w x)) :=
    Vec.add_eq (by simp [hv, hw])
  exact proveRangeUnchecked_steps E pp rnd V v r (2 ^ k) hGs (expand_one _) (expand_zero _) rfl w1 w2
    s1 v1 q1 q2 s2 q3 q4 rfl rfl hx' rfl hrdx v13 hred' hf hd r1 r2
    r3 r4 rfl hy0' hy1' rfl rfl v2 v3 v4 v5 s3 v6 v7 v8 s4 v9 rfl rfl hz' hFp' v10 v11 v12 hipa hipaArg hπ

theorem iterReduceLoop_challenges (E : Curve G1 G2 GT) (hE : E.Lawful) (digest : Bytes) (j : ℕ) :
    ∀ (G : List G1) (v : List Zr) (V : G1) (Δ : List (G1 × G1 × G1)) (xs : List Zr) (r),
      G.length = 2 ^ j → v.length = 2 ^ j → iterReduceLoop E digest (2 ^ j / 2) G v V Δ xs = some r →
      ∃ Δ', r.1 = Δ ++ Δ' ∧ r.2.1 = xs ++ irChallenges E digest V Δ' := by
  induction j with
  | zero =>
    intro G v V Δ xs r hG hv hr
    obtain ⟨v0, rfl⟩ := List.length_eq_one_iff.1 hv
    rw [iterReduceLoop] at hr
    simp at hr
    subst hr
    exact ⟨[], by simp, by simp [irChallenges]⟩
  | succ j ih =>
    intro G v V Δ xs r hG hv hr
    have h2 : 2 ^ (j + 1) / 2 = 2 ^ j := by rw [pow_succ]; omega
    rw [pow_succ, mul_comm] at hG hv
    obtain ⟨x, hx⟩ := irChallenge_isSome E hE digest (dot (v.drop (2 ^ j)) (G.take (2 ^ j)))
      (dot (v.take (2 ^ j)) (G.drop (2 ^ j))) V
    rw [h2, iterReduceLoop_step E digest (2 ^ j) (by positivity) G v V Δ xs hG hv x hx] at hr
    obtain ⟨Δ', h3, h4⟩ := ih _ _ _ _ _ r (foldG_length hG) (foldV_length hv) hr
    refine ⟨(dot (v.drop (2 ^ j)) (G.take (2 ^ j)), dot (v.take (2 ^ j)) (G.drop (2 ^ j)),
        dot (foldV 1 x (2 ^ j) v) (foldG 1 x⁻¹ (2 ^ j) G)) :: Δ', by rw [h3]; simp, ?_⟩
    rw [h4, irChallenges, hx]
    simp

theorem verifyRangeState_steps (E : Curve G1 G2 GT) (pp : RPPP G1) (rp : RangeProof G1) (V : G1) (n : ℕ)
    (hn : pp.Gs.length = n) {one Y y1v f d xs FvT : List Zr} {Fp : List G1} {x u y0 y1 z β1 β3 : Zr}
    {rdx ipaPP : PP G1} {P : G1}
    (hone : expand (intToZr 1) (n * 63) = one)
    (e1 : rangeProofRO1 E pp V rp.W rp.Q = some x) (e2 : rangeRdxPP E pp = some rdx)
    (e3 : iterativeVerify E rdx (rp.γ • pp.F + V + x • rp.W) rp.Δ rp.u = some (some (xs, u)))
    (e4 : rangeF n (Vec.reverse xs) = some f) (e5 : computeD n 63 f x = some d)
    (e6 : rangeY E pp rp.Q rp.R x 0 = some y0) (e7 : rangeY E pp rp.Q rp.R x 1 = some y1)
    (hY : powerSeries (n * 63) y0 = Y) (hy1v : Vec.mul one y1 = y1v)
    (e8 : computeZ E pp rp.C1 rp.C2 rp.Q rp.R (zrBytes y0) (zrBytes y1) = some z)
    (e9 : Gv.mulV pp.Fs (powerSeries pp.Fs.length y0⁻¹) = some Fp)
    (e10 : rangeIpaPP E pp Fp = some ipaPP)
    (e11 : computeP pp rp.ρ rp.Q rp.R z y1v n 63 Fp d y1 = some P) {bv : Bool}
    (e12 : InnerProductProof.verify E { rp.ipp with C := rp.c, P := P } ipaPP = some bv)
    (e13 : Vec.innerProd one Y = some β1) (e14 : sliceTo d (n * 63) = some FvT)
    (e15 : Vec.innerProd one FvT = some β3) :
    verifyRange E pp rp V = some (bv && decide (z • rp.C1 + (z * z) • rp.C2
        + (β3 * (y1 * y1 * y1) + y1 * y1 * (u + β1) + β1 * y1) • pp.G = rp.c • pp.G + rp.τ • pp.H)) := by
  subst hn hone hY hy1v
  have key : verifyRangeState E pp rp V = some (bv && decide (z • rp.C1 + (z * z) • rp.C2
        + (β3 * (y1 * y1 * y1) + y1 * y1 * (u + β1) + β1 * y1) • pp.G = rp.c • pp.G + rp.τ • pp.H),
        { rp with ipp := { rp.ipp with C := rp.c, P := P } }) := by
    unfold verifyRangeState
    refine obind_step e1 (obind_step e2 (obind_step e3 ?_))
    refine obind_step e4 (obind_step e5 (obind_step e6 (obind_step e7 (obind_step e8 (obind_step e9
      (obind_step e10 (obind_step e11 (obind_step e12 ?_))))))))
    cases bv with
    | false => rfl
    | true => exact obind_step e13 (obind_step e13 (obind_step e14 (obind_step e15 rfl)))
  rw [verifyRange, key]
  rfl

theorem dot_append_zeros_left (v : List Zr) (g : List G1) (N n : ℕ) (hv : v.length = N) (hg : g.length = N + n) :
    dot (v ++ List.replicate n (0 : Zr)) g = dot v (g.take N) := by
  conv_lhs => rw [← List.take_append_drop N g]
  rw [dot_append _ _ _ _ (by simp [hv, hg]), dot_replicate_zero, add_zero]

theorem computeP_eq (pp : RPPP G1) (ρ : Zr) (Q R : G1) (z : Zr) (y1v : List Zr) (n m : ℕ) (Fp : List G1)
    (d : List Zr) (y1 : Zr) (hN : 0 < n * m) (hH : n * m ≤ pp.Hs.length) (hF : n * m ≤ pp.Fs.length)
    (hy : y1v.length = n * m) (hd : d.length = Fp.length) (hFp : Fp.length ≠ 0) :
    computeP pp ρ Q R z y1v n m Fp d y1 = some (ρ • pp.F + Q + z • R + dot y1v (pp.Hs.take (n * m))
      + dot (Vec.mul d (y1 * y1)) Fp + dot y1v (pp.Fs.take (n * m))) := by
  obtain ⟨q1, q2⟩ := gv_mulV_sum_slice (g := pp.Hs) (v := y1v) hH hy hN
  obtain ⟨q3, q4⟩ := gv_mulV_sum_slice (g := pp.Fs) (v := y1v) hF hy hN
  obtain ⟨q5, q6⟩ := gv_mulV_sum (g := Fp) (v := Vec.mul d (y1 * y1)) rfl (by simpa using hd) (by omega)
  unfold computeP
  exact obind_step (sliceTo_eq hH) (obind_step q1 (obind_step q2 (obind_step q5 (obind_step q6
    (obind_step (sliceTo_eq hF) (obind_step q3 (obind_step q4 rfl)))))))

theorem dot_complement (B Y : List Zr) (h : B.length = Y.length) :
    dot B Y + dot (List.zipWith (· - ·) (List.replicate Y.length 1) B) Y = Y.sum := by
  induction B generalizing Y with
  | nil =>
    cases Y with
    | nil => simp
    | cons _ _ => simp at h
  | cons b B ih =>
    cases Y with
    | nil => simp at h
    | cons y Y =>
      have := ih Y (by simpa using h)
      simp only [List.length_cons, List.replicate_succ, List.zipWith_cons_cons, dot_cons, List.sum_cons,
        smul_eq_mul]
      linear_combination this

theorem dot_bit_complement (B Y : List Zr) (hB : ∀ b ∈ B, b = 0 ∨ b = 1) (N : ℕ) :
    dot B (List.zipWith (· * ·) (List.zipWith (· - ·) (List.replicate N 1) B) Y) = 0 := by
  induction B generalizing Y N with
  | nil => simp
  | cons b B ih =>
    cases N with
    | zero => simp
    | succ N =>
      cases Y with
      | nil => simp
      | cons y Y =>
        simp only [List.replicate_succ, List.zipWith_cons_cons, dot_cons, smul_eq_mul]
        rw [ih Y (fun x hx => hB x (by simp [hx])) N]
        rcases hB b (by simp) with rfl | rfl <;> ring

/-- A range proof is made for any `V`; it is accepted if `V` is the commitment to the vector. -/
theorem range_run (E : Curve G1 G2 GT) (hE : E.Lawful) (pp : RPPP G1) (k : ℕ) (hpp : pp.Sized k)
    (rnd : RangeRand) (hrnd : rnd.WellFormed (2 ^ k)) (v : List Zr) (hv : v.length = 2 ^ k)
    (hrange : ∀ x ∈ v, x.val < 2 ^ 63) (r : Zr) (V : G1) :
    ∃ rp ipaPP, proveRangeUnchecked E pp rnd V v r = some (rp, ipaPP) ∧
      ((∀ x ∈ rangeChallenges E pp V rp ipaPP, x ≠ 0) →
        proveRange E pp rnd V v r = some rp ∧ (V = r • pp.F + dot v pp.Gs → verifyRange E pp rp V = some true)) := by
  obtain ⟨W, Q, R, C1, C2, x, y0, y1, z, c, c1, c2, u, rdx, ipaPP, Δ, xs, f, d, B, wc, a, b, a', b', Fp, π,
    hW, hB, hwc, hQ, hx, hrdx, hrdxG, hred, hf, lf, hd, hu, hR, hy0, hy1, ha', hb', hc1, hc2, hC1, hC2, hz,
    hFp, hFp', ha, hb, la, lb, hc, hipa, hipaG, hipaH, hπ, hprove⟩ :=
    proveRangeUnchecked_eq E hE pp k hpp rnd hrnd V v hv hrange r
  refine ⟨_, ipaPP, hprove, fun hne => ?_⟩
  obtain ⟨hk1, hk2, hGs, hHs, hFs⟩ := hpp
  obtain ⟨hw, hs, ht⟩ := hrnd
  simp only [rangeChallenges, hx, hrdx, hy0, Option.getD_some] at hne
  have hy00 : y0 ≠ 0 := hne y0 (by simp)
  have hn : 0 < 2 ^ k := by positivity
  have hN : 0 < 2 ^ k * 63 := by positivity
  have lB : B.length = 2 ^ k * 63 := by rw [hB, rangeBits_length 63 v hrange, hv]
  have lwc : wc.length = 2 ^ k * 63 := by simp [hwc, lB]
  have lFp : Fp.length = 2 ^ k * 63 + 2 ^ k := by simp [hFp', hFs]
  have ld : d.length = 2 ^ k * 63 + 2 ^ k := by simp [hd, rangeD_length, lf]
  -- the reduction
  have hU : V = r • pp.F + dot v pp.Gs → negZr (r + x * rnd.rPrime) • pp.F + V + x • W
      = dot (List.zipWith (· + ·) v (Vec.mul rnd.w x)) rdx.G := by
    intro hV
    rw [hrdxG, dot_add_left _ _ _ (by simp [hv, hw]), Vec.dot_mul, hV, hW, negZr_eq]
    module
  have lwr : (List.zipWith (· + ·) v (Vec.mul rnd.w x)).length = 2 ^ k := by simp [hv, hw]
  obtain ⟨Δ₂, xs₂, u₂, hr1, -, -, -, hr2⟩ := iterReduceLoop_complete E hE rdx.digest k rdx.G
    (List.zipWith (· + ·) v (Vec.mul rnd.w x)) (negZr (r + x * rnd.rPrime) • pp.F + V + x • W) [] []
    (by rw [hrdxG, hGs]) lwr
  have hred2 := hred
  rw [iterativeReduce, hrdxG, hGs, isPowerOfTwo_pow k hk1 hk2] at hred2
  rw [hrdxG] at hr1
  simp only [Option.bind_eq_bind, Option.bind_some, Bool.not_true, Bool.false_eq_true, if_false] at hred2
  rw [hr1, List.nil_append, List.nil_append] at hred2
  have hΔ : Δ₂ = Δ ∧ xs₂ = xs ∧ u₂ = u := by
    simpa using hred2
  obtain ⟨rfl, rfl, rfl⟩ := hΔ
  have hxs : ∀ y ∈ xs₂, y ≠ 0 := by
    obtain ⟨Δ', h1, h2⟩ := iterReduceLoop_challenges E hE rdx.digest k _ _ _ _ _ _ hGs lwr hr1
    simp only [List.nil_append] at h1 h2
    intro y hy
    refine hne y ?_
    rw [h2, ← h1] at hy
    simp [hy]
  have hver : V = r • pp.F + dot v pp.Gs → iterativeVerify E rdx (negZr (r + x * rnd.rPrime) • pp.F + V + x • W) Δ₂ u₂
      = some (some (xs₂, u₂)) := by
    intro hV
    rw [iterativeVerify, hrdxG, hGs, isPowerOfTwo_pow k hk1 hk2]
    have := hr2 hxs (hU hV) none [] (fun h => by omega)
    rw [hrdxG] at this
    simpa using this
  -- the commitment of the inner-product statement
  have hP : negZr (rnd.ν + rnd.η * z) • pp.F + Q + z • R
      + dot (Vec.mul (List.replicate (2 ^ k * 63) 1) y1) (pp.Hs.take (2 ^ k * 63))
      + dot (Vec.mul d (y1 * y1)) Fp
      + dot (Vec.mul (List.replicate (2 ^ k * 63) 1) y1) (pp.Fs.take (2 ^ k * 63))
      = dot a pp.Hs + dot b Fp := by
    have lY : (powerSeries (2 ^ k * 63) y0).length = 2 ^ k * 63 := by simp
    have g1 := dot_scaled_generators y0 hy00 wc pp.Fs _ _ lwc hFs
    have g2 := dot_scaled_generators y0 hy00 rnd.t pp.Fs _ _ ht hFs
    have g3 := dot_scaled_generators y0 hy00 (List.replicate (2 ^ k * 63) 1) pp.Fs _ _ (by simp) hFs
    rw [← hFp'] at g1 g2 g3
    have e3 : List.zipWith (· * ·) (List.replicate (2 ^ k * 63) (1 : Zr)) (powerSeries (2 ^ k * 63) y0)
        = powerSeries (2 ^ k * 63) y0 := by
      apply List.ext_getElem (by simp)
      intro i h1 h2
      simp
    have e2 : List.zipWith (· * ·) rnd.t (powerSeries (2 ^ k * 63) y0)
        = List.zipWith (· * ·) (powerSeries (2 ^ k * 63) y0) rnd.t := by
      rw [List.zipWith_comm]
      congr 1
      funext p q
      exact mul_comm _ _
    rw [e3] at g3
    rw [e2] at g2
    rw [ha, hb, ha', hb', dot_add_left _ _ _ (by simp [lB, hw, hs]), dot_add_left _ _ _ (by simp [lB, hw]),
      dot_add_left _ _ _ (by simp [ld, lwc, ht]), dot_add_left _ _ _ (by simp [ld, lwc]),
      dot_add_left _ _ _ (by simp [ld]), dot_append_zeros_left _ pp.Hs (2 ^ k * 63) (2 ^ k) (by simp) hHs]
    simp only [Vec.dot_mul]
    rw [g1, g2, g3, hQ, hR, negZr_eq]
    module
  have hpow : 2 ^ k * 63 + 2 ^ k = 2 ^ (k + 6) := by rw [pow_add]; omega
  obtain ⟨π₂, x₂, hπ₂, hπP, hπC, -, -, hπv⟩ := prove_verify E hE ipaPP a b (dot a b) (dot a pp.Hs + dot b Fp) (k + 6)
    (by rw [la, hpow]) (by rw [lb, hpow]) (by rw [hipaG, hHs, hpow]) (by rw [hipaH, lFp, hpow])
  rw [hπ] at hπ₂
  cases hπ₂
  have hπ₁ := hπv (fun y hy => hne y (by simp [hy])) (dot a pp.Hs + dot b Fp) (dot a b) rfl
  have hdec : dot a b • x₂ • ipaPP.U + dot a ipaPP.G + dot b ipaPP.H
      = dot a pp.Hs + dot b Fp + (x₂ * dot a b) • ipaPP.U := by
    rw [hipaG, hipaH]; module
  rw [hdec, decide_eq_true rfl] at hπ₁
  have hself : π.verify E ipaPP = some true := by
    rw [← hπ₁]
    congr 1
    cases π
    simp only at hπP hπC
    rw [hπP, hπC]
  constructor
  · rw [proveRange, hprove]
    simp only [Option.bind_eq_bind, Option.bind_some]
    rw [hself]
    rfl
  · intro hV
    have hver := hver hV
    have hcP := computeP_eq pp (negZr (rnd.ν + rnd.η * z)) Q R z
      (Vec.mul (List.replicate (2 ^ k * 63) 1) y1) (2 ^ k) 63 Fp d y1 hN (by omega) (by omega) (by simp)
      (by omega) (by omega)
    rw [hP] at hcP
    have lD : (rangeD 63 f).length = 2 ^ k * 63 := by rw [rangeD_length, lf]
    have hdT : d.take (2 ^ k * 63) = rangeD 63 f := by rw [hd, ← lD]; simp
    have hcomp := computeD_eq 63 f x
    rw [lf, ← hd] at hcomp
    have v1 : Vec.innerProd (List.replicate (2 ^ k * 63) (1 : Zr)) (powerSeries (2 ^ k * 63) y0)
        = some (dot (List.replicate (2 ^ k * 63) (1 : Zr)) (powerSeries (2 ^ k * 63) y0)) :=
      Vec.innerProd_eq (by simp)
    have v2 : Vec.innerProd (List.replicate (2 ^ k * 63) (1 : Zr)) (d.take (2 ^ k * 63))
        = some (dot (List.replicate (2 ^ k * 63) (1 : Zr)) (d.take (2 ^ k * 63))) :=
      Vec.innerProd_eq (by simp [ld])
    have v3 : sliceTo d (2 ^ k * 63) = some (d.take (2 ^ k * 63)) := sliceTo_eq (by omega)
    rw [← hc] at hπ₁
    rw [verifyRangeState_steps E pp ⟨Δ₂, u₂, W, negZr (r + x * rnd.rPrime), π, c, Q, R, C1, C2,
      rnd.τ1 * z + rnd.τ2 * (z * z), negZr (rnd.ν + rnd.η * z)⟩ V (2 ^ k) hGs (expand_one _) hx hrdx hver hf hcomp
      hy0 hy1 rfl rfl hz hFp hipa hcP hπ₁ v1 v3 v2]
    rw [Bool.true_and, Option.some_inj, decide_eq_true_eq]
    dsimp only
    rw [hdT, dot_one_left _ _ lD, dot_one_left _ (powerSeries (2 ^ k * 63) y0) (by simp)]
    have hcv : c = dot a' b' + z * c1 + z * z * c2 := by
      rw [hc, ha, hb, hc1, hc2]
      exact range_poly (2 ^ k * 63) (2 ^ k) a' b' rnd.s _ z (by simp [ha', lB, hw]) (by simp [hb', ld, lwc]) hs
        (by simp [ht])
    have hconst : dot a' b' = y1 * y1 * u₂ + y1 * (powerSeries (2 ^ k * 63) y0).sum
        + y1 * y1 * y1 * (rangeD 63 f).sum + y1 * y1 * (powerSeries (2 ^ k * 63) y0).sum := by
      rw [ha', hb', hd, range_constant_term (2 ^ k * 63) (2 ^ k) B wc _ (rangeD 63 f) (Vec.mul f x) rnd.w y1 lB lwc
        (by simp) lD (by simp [lf]) hw]
      have h1 := dot_complement B (powerSeries (2 ^ k * 63) y0) (by simp [lB])
      rw [powerSeries_length, ← hwc] at h1
      have h2 := dot_bit_complement B (powerSeries (2 ^ k * 63) y0) (by rw [hB]; exact rangeBits_zero_one 63 v)
        (2 ^ k * 63)
      rw [← hwc] at h2
      rw [h1, h2, dot_append _ _ _ _ (by rw [lB, lD]), hB, dot_rangeBits 63 v f (by rw [hv, lf]) hrange, hu,
        dot_add_left _ _ _ (by simp [hv, hw]), Vec.dot_mul, dot_mul_right, smul_eq_mul]
      ring
    rw [hcv, hconst, hC1, hC2]
    module

/-- The range proof of an in-range vector is accepted. -/
theorem range_complete (E : Curve G1 G2 GT) (hE : E.Lawful) (pp : RPPP G1) (k : ℕ) (hpp : pp.Sized k)
    (rnd : RangeRand) (hrnd : rnd.WellFormed (2 ^ k)) (v : List Zr) (hv : v.length = 2 ^ k)
    (hrange : ∀ x ∈ v, x.val < 2 ^ 63) (r : Zr) (V : G1) (hV : V = r • pp.F + dot v pp.Gs) :
    ∃ rp ipaPP, proveRangeUnchecked E pp rnd V v r = some (rp, ipaPP) ∧
      ((∀ x ∈ rangeChallenges E pp V rp ipaPP, x ≠ 0) →
        proveRange E pp rnd V v r = some rp ∧ verifyRange E pp rp V = some true) := by
  obtain ⟨rp, ipaPP, h1, h2⟩ := range_run E hE pp k hpp rnd hrnd v hv hrange r V
  exact ⟨rp, ipaPP, h1, fun hne => ⟨(h2 hne).1, (h2 hne).2 hV⟩⟩

end BP
end PoL
