import Verif.Proofs.Range
import Verif.Proofs.Mask

/-!
# What the output of the range proof depends on
-/

set_option linter.unusedSectionVars false

namespace PoL.BP

variable {G1 G2 GT : Type} [AddCommGroup G1] [Module Zr G1] [AddCommGroup G2] [Module Zr G2]
  [AddCommGroup GT] [Module Zr GT] [DecidableEq G1]

theorem finite_rangeRand (n : ℕ) : Finite {rnd : RangeRand // rnd.WellFormed n} :=
  have := finite_lists (A := Zr) n
  have := finite_lists (A := Zr) (n * 63 + n)
  have := finite_lists (A := Zr) (n * 63)
  Finite.of_injective
    (fun r => ((⟨r.1.w, r.2.1⟩, ⟨r.1.s, r.2.2.1⟩, ⟨r.1.t, r.2.2.2⟩, r.1.rPrime, r.1.ν, r.1.η, r.1.τ1, r.1.τ2) :
      {l : List Zr // l.length = n} × {l : List Zr // l.length = n * 63 + n} × {l : List Zr // l.length = n * 63} ×
        Zr × Zr × Zr × Zr × Zr)) fun a b h => by
    obtain ⟨⟨w, r, ν, η, s, t, τ1, τ2⟩, ha⟩ := a
    obtain ⟨⟨w', r', ν', η', s', t', τ1', τ2'⟩, hb⟩ := b
    simp only [Prod.mk.injEq, Subtype.mk.injEq] at h
    obtain ⟨rfl, rfl, rfl, rfl, rfl, rfl, rfl, rfl⟩ := h
    rfl

theorem mask_add_right (p q s : List Zr) (z : Zr) :
    mask (List.zipWith (· + ·) p q) s z = List.zipWith (· + ·) (mask p s z) q := by
  apply List.ext_getElem
  · simp only [mask, Vec.mul, List.length_zipWith, List.length_map]; omega
  · intro i h1 h2
    simp only [mask, Vec.mul, List.getElem_zipWith, List.getElem_map]
    ring

theorem mask_hadamard_zeros (b₁ wc Y t : List Zr) (z : Zr) (N n : ℕ) (hb : b₁.length = N + n) (hw : wc.length = N)
    (hY : Y.length = N) (ht : t.length = N) :
    mask (List.zipWith (· + ·) b₁ (List.zipWith (· * ·) wc Y ++ List.replicate n 0))
      (List.zipWith (· * ·) Y t ++ List.replicate n 0) z
      = List.zipWith (· + ·) b₁ (List.zipWith (· * ·) (mask wc t z) Y ++ List.replicate n 0) := by
  apply List.ext_getElem
  · simp [mask, Vec.mul, hb, hw, hY, ht]
  · intro i h1 h2
    simp only [mask, Vec.mul, List.getElem_zipWith, List.getElem_map, List.getElem_append, List.length_zipWith,
      List.length_map, hw, hY, ht, Nat.min_self]
    split
    · ring
    · simp

/-- The constant term is determined by public values. -/
theorem range_constant (N n : ℕ) (v w f Y : List Zr) (x y1 : Zr) (hN : N = n * 63) (hv : v.length = n) (hw : w.length = n)
    (hf : f.length = n) (hY : Y.length = N) (hrange : ∀ x ∈ v, x.val < 2 ^ 63) :
    dot (List.zipWith (· + ·) (rangeBits 63 v ++ w) (Vec.mul (List.replicate N 1) y1 ++ List.replicate n 0))
      (List.zipWith (· + ·) (List.zipWith (· + ·) (Vec.mul (rangeD 63 f ++ Vec.mul f x) (y1 * y1))
        (Vec.mul (Y ++ List.replicate n 0) y1))
        (List.zipWith (· * ·) (List.zipWith (· - ·) (List.replicate N 1) (rangeBits 63 v)) Y ++ List.replicate n 0))
      = y1 * y1 * dot (mask v w x) f + y1 * Y.sum + y1 * y1 * y1 * (rangeD 63 f).sum + y1 * y1 * Y.sum := by
  have lB : (rangeBits 63 v).length = N := by rw [rangeBits_length 63 v hrange, hv, hN]
  have lD : (rangeD 63 f).length = N := by rw [rangeD_length, hf, hN]
  rw [range_constant_term N n (rangeBits 63 v) _ Y (rangeD 63 f) (Vec.mul f x) w y1 lB (by simp [lB]) hY lD
    (by simp [hf]) hw]
  have h1 := dot_complement (rangeBits 63 v) Y (by rw [lB, hY])
  rw [hY] at h1
  have h2 := dot_bit_complement (rangeBits 63 v) Y (rangeBits_zero_one 63 v) N
  rw [h1, h2, dot_append _ _ _ _ (by rw [lB, lD]), dot_rangeBits 63 v f (by rw [hv, hf]) hrange,
    dot_mask _ _ (by omega), dot_mul_right, smul_eq_mul]
  ring

/-- One direction of the matching. -/
theorem proveRange_switch (E : Curve G1 G2 GT) (hE : E.Lawful) (pp : RPPP G1) (k : ℕ) (hpp : pp.Sized k)
    (hcyc : PrimeOrder G1) (hF : pp.F ≠ 0) (hH : pp.H ≠ 0) (V : G1) (v v' : List Zr) (r r' : Zr) (hv : v.length = 2 ^ k)
    (hv' : v'.length = 2 ^ k) (hrange : ∀ x ∈ v, x.val < 2 ^ 63) (hrange' : ∀ x ∈ v', x.val < 2 ^ 63)
    (hV : r • pp.F + dot v pp.Gs = r' • pp.F + dot v' pp.Gs) (rp : RangeProof G1) (ipaPP : PP G1) (x y0 y1 z : Zr)
    (hx : rangeProofRO1 E pp V rp.W rp.Q = some x) (hx0 : x ≠ 0)
    (hy0 : rangeY E pp rp.Q rp.R x 0 = some y0) (hy1 : rangeY E pp rp.Q rp.R x 1 = some y1)
    (hz : computeZ E pp rp.C1 rp.C2 rp.Q rp.R (zrBytes y0) (zrBytes y1) = some z) (hz0 : z ≠ 0)
    (rnd : RangeRand) (hrnd : rnd.WellFormed (2 ^ k)) (h : proveRangeUnchecked E pp rnd V v r = some (rp, ipaPP)) :
    ∃ rnd' : RangeRand, rnd'.WellFormed (2 ^ k) ∧ proveRangeUnchecked E pp rnd' V v' r' = some (rp, ipaPP) ∧
      mask v rnd.w x = mask v' rnd'.w x ∧ r + x * rnd.rPrime = r' + x * rnd'.rPrime ∧
      mask (rangeBits 63 v ++ rnd.w) rnd.s z = mask (rangeBits 63 v' ++ rnd'.w) rnd'.s z ∧
      mask (List.zipWith (· - ·) (List.replicate (2 ^ k * 63) 1) (rangeBits 63 v)) rnd.t z
        = mask (List.zipWith (· - ·) (List.replicate (2 ^ k * 63) 1) (rangeBits 63 v')) rnd'.t z := by
  obtain ⟨W, Q, R, C1, C2, x₁, y0₁, y1₁, z₁, c, c1, c2, u, rdx, ipaPP₁, Δ, xs, f, d, B, wc, a, b, a', b', Fp, π,
    eW, eB, ewc, eQ, ex, erdx, -, ered, ef, lf, ed, eu, eR, ey0, ey1, ea', eb', ec1, ec2, eC1, eC2, ez,
    eFp, -, ea, eb, -, -, ec, eipa, -, -, eπ, eprove⟩ :=
    proveRangeUnchecked_eq E hE pp k hpp rnd hrnd V v hv hrange r
  rw [h] at eprove
  obtain ⟨e1, rfl⟩ := Prod.mk.inj (Option.some_inj.1 eprove)
  subst e1
  dsimp only at hx hy0 hy1 hz
  cases hx.symm.trans ex
  cases hy0.symm.trans ey0
  cases hy1.symm.trans ey1
  cases hz.symm.trans ez
  obtain ⟨hw, hs, ht⟩ := hrnd
  have lB : B.length = 2 ^ k * 63 := by rw [eB, rangeBits_length 63 v hrange, hv]
  have lB' : (rangeBits 63 v').length = 2 ^ k * 63 := by rw [rangeBits_length 63 v' hrange', hv']
  have lwc : wc.length = 2 ^ k * 63 := by simp [ewc, lB]
  have ld : d.length = 2 ^ k * 63 + 2 ^ k := by simp [ed, rangeD_length, lf]
  obtain ⟨w', lw, hm⟩ := mask_exists hx0 hv hv' hw
  obtain ⟨s', ls, hms⟩ := mask_exists (v := B ++ rnd.w) (v' := rangeBits 63 v' ++ w') (w := rnd.s)
    (n := 2 ^ k * 63 + 2 ^ k) hz0 (by simp [lB, hw]) (by simp [lB', lw]) hs
  obtain ⟨wc', ewc'⟩ : ∃ l, l = List.zipWith (· - ·) (List.replicate (2 ^ k * 63) 1) (rangeBits 63 v') := ⟨_, rfl⟩
  have lwc' : wc'.length = 2 ^ k * 63 := by simp [ewc', lB']
  obtain ⟨t', lt, hmt⟩ := mask_exists (v := wc) (v' := wc') (w := rnd.t) hz0 lwc lwc' ht
  obtain ⟨ρ', hρ'⟩ : ∃ ρ', r + x * rnd.rPrime = r' + x * ρ' := ⟨rnd.rPrime + x⁻¹ * (r - r'), by field_simp; ring⟩
  obtain ⟨ν', hν'⟩ := hcyc pp.F hF (Q - dot (rangeBits 63 v' ++ w') pp.Hs - dot wc' (pp.Fs.take (2 ^ k * 63)))
  obtain ⟨η', hη'⟩ := hcyc pp.F hF (R - dot s' pp.Hs - dot t' (pp.Fs.take (2 ^ k * 63)))
  -- the second run
  obtain ⟨a₂', ea₂'⟩ : ∃ l, l = List.zipWith (· + ·) (rangeBits 63 v' ++ w')
    (Vec.mul (List.replicate (2 ^ k * 63) 1) y1 ++ List.replicate (2 ^ k) 0) := ⟨_, rfl⟩
  obtain ⟨b₂', eb₂'⟩ : ∃ l, l = List.zipWith (· + ·) (List.zipWith (· + ·) (Vec.mul d (y1 * y1))
        (Vec.mul (powerSeries (2 ^ k * 63) y0 ++ List.replicate (2 ^ k) 0) y1))
        (List.zipWith (· * ·) wc' (powerSeries (2 ^ k * 63) y0) ++ List.replicate (2 ^ k) 0) := ⟨_, rfl⟩
  obtain ⟨τ1', hτ1'⟩ := hcyc pp.H hH (C1 - (dot (a₂'.take (2 ^ k * 63))
    (List.zipWith (· * ·) (powerSeries (2 ^ k * 63) y0) t') + dot s' b₂') • pp.G)
  obtain ⟨τ2', hτ2'⟩ := hcyc pp.H hH (C2 - (dot (s'.take (2 ^ k * 63))
    (List.zipWith (· * ·) (powerSeries (2 ^ k * 63) y0) t')) • pp.G)
  refine ⟨⟨w', ρ', ν', η', s', t', τ1', τ2'⟩, ⟨lw, ls, lt⟩, ?_, hm, hρ', by rw [← eB]; exact hms,
    by rw [← eB, ← ewc, ← ewc']; exact hmt⟩
  obtain ⟨W₂, Q₂, R₂, C1₂, C2₂, x₂, y0₂, y1₂, z₂, c₂, c1₂, c2₂, u₂, rdx₂, ipaPP₂, Δ₂, xs₂, f₂, d₂, B₂, wc₂, a₂, b₂, a'₂, b'₂,
    Fp₂, π₂, fW, fB, fwc, fQ, fx, frdx, -, fred, ff, lf₂, fd, fu, fR, fy0, fy1, fa', fb', fc1, fc2, fC1, fC2, fz,
    fFp, -, fa, fb, -, -, fc, fipa, -, -, fπ, fprove⟩ :=
    proveRangeUnchecked_eq E hE pp k hpp ⟨w', ρ', ν', η', s', t', τ1', τ2'⟩ ⟨lw, ls, lt⟩ V v' hv' hrange' r'
  dsimp only at fW fQ fx fred fu fR fa' fc1 fc2 fC1 fC2 fa fb fprove
  rw [fprove]
  subst fB
  rw [← ewc'] at fwc
  subst fwc
  have hWW : W₂ = W := by
    have e2 := mask_dot_eq hv hv' hw lw hm pp.Gs
    rw [fW, eW]
    apply smul_cancel hx0
    have e3 : (x * ρ') • pp.F = (r - r' + x * rnd.rPrime) • pp.F := by congr 1; linear_combination -hρ'
    rw [smul_add, smul_add, smul_smul, smul_smul, e3]
    linear_combination (norm := module) hV - e2
  subst hWW
  have hQQ : Q₂ = Q := by rw [fQ, ← hν']; abel
  subst hQQ
  cases hx.symm.trans fx
  have hRR : R₂ = R := by rw [fR, ← hη']; abel
  subst hRR
  cases hy0.symm.trans fy0
  cases hy1.symm.trans fy1
  cases erdx.symm.trans frdx
  have hred : (Δ, xs, u) = (Δ₂, xs₂, u₂) := by
    rw [← Option.some_inj, ← ered, ← fred]
    change iterativeReduce E rdx (mask v rnd.w x) _ = iterativeReduce E rdx (mask v' w' x) _
    rw [hm, hρ']
  cases hred
  cases ef.symm.trans ff
  rw [← ed] at fd
  subst fd
  rw [← ea₂'] at fa'
  subst fa'
  rw [← eb₂'] at fb'
  subst fb'
  have hCC1 : C1₂ = C1 := by rw [fC1, ← hτ1', fc1]; abel
  have hCC2 : C2₂ = C2 := by rw [fC2, ← hτ2', fc2]; abel
  subst hCC1 hCC2
  cases hz.symm.trans fz
  cases eFp.symm.trans fFp
  cases eipa.symm.trans fipa
  have haa : a₂ = a := by
    rw [fa, ea, ea', ea₂']
    change mask _ _ _ = mask _ _ _
    rw [mask_add_right, mask_add_right, hms]
  have hbb : b₂ = b := by
    rw [fb, eb, eb', eb₂']
    change mask _ _ _ = mask _ _ _
    rw [mask_hadamard_zeros _ wc₂ _ t' z (2 ^ k * 63) (2 ^ k) (by simp [ld]) lwc' (by simp) lt,
      mask_hadamard_zeros _ wc _ rnd.t z (2 ^ k * 63) (2 ^ k) (by simp [ld]) lwc (by simp) ht, hmt]
  subst haa hbb
  cases eπ.symm.trans fπ
  have hρρ : ν' + η' * z = rnd.ν + rnd.η * z := by
    apply smul_scalar_cancel hF
    have e1 := mask_dot_eq (n := 2 ^ k * 63 + 2 ^ k) (by simp [lB, hw]) (by simp [lB', lw]) hs ls hms pp.Hs
    have e2 := mask_dot_eq lwc lwc' ht lt hmt (pp.Fs.take (2 ^ k * 63))
    have e3 := eQ.symm.trans fQ
    have e4 := eR.symm.trans fR
    have e5 : z • (rnd.η • pp.F + dot rnd.s pp.Hs + dot rnd.t (pp.Fs.take (2 ^ k * 63)))
        = z • (η' • pp.F + dot s' pp.Hs + dot t' (pp.Fs.take (2 ^ k * 63))) := by rw [e4]
    linear_combination (norm := module) e1 + e2 - e3 - e5
  have hcc : z * c1₂ + z * z * c2₂ = z * c1 + z * z * c2 := by
    have k1 : c = dot a' b' + z * c1 + z * z * c2 := by
      rw [ec, ea, eb, ec1, ec2]
      exact range_poly (2 ^ k * 63) (2 ^ k) a' b' rnd.s _ z (by simp [ea', lB, hw]) (by simp [eb', ld, lwc]) hs
        (by simp [ht])
    have k2 : c₂ = dot a'₂ b'₂ + z * c1₂ + z * z * c2₂ := by
      rw [fc, fa, fb, fc1, fc2]
      exact range_poly (2 ^ k * 63) (2 ^ k) a'₂ b'₂ s' _ z (by simp [ea₂', lB', lw]) (by simp [eb₂', ld, lwc']) ls
        (by simp [lt])
    have k3 : dot a' b' = dot a'₂ b'₂ := by
      rw [ea', eb', ea₂', eb₂', ed, eB, ewc, ewc', eB,
        range_constant (2 ^ k * 63) (2 ^ k) v rnd.w f _ x y1 rfl hv hw lf (by simp) hrange,
        range_constant (2 ^ k * 63) (2 ^ k) v' w' f _ x y1 rfl hv' lw lf (by simp) hrange', hm]
    rw [ec, ← fc, k2, k3] at k1
    linear_combination k1
  have hττ : τ1' * z + τ2' * (z * z) = rnd.τ1 * z + rnd.τ2 * (z * z) := by
    apply smul_scalar_cancel hH
    have e1 := eC1.symm.trans fC1
    have e2 := eC2.symm.trans fC2
    have e3 : (z * c1₂ + z * z * c2₂) • pp.G = (z * c1 + z * z * c2) • pp.G := by rw [hcc]
    have e1' : z • (c1 • pp.G + rnd.τ1 • pp.H) = z • (c1₂ • pp.G + τ1' • pp.H) := by rw [e1]
    have e2' : (z * z) • (c2 • pp.G + rnd.τ2 • pp.H) = (z * z) • (c2₂ • pp.G + τ2' • pp.H) := by rw [e2]
    linear_combination (norm := module) - e1' - e2' - e3
  rw [hρρ, hττ, fc, ec, hρ']

/-- What the proof says about the random values. -/
theorem proveRange_reads (E : Curve G1 G2 GT) (hE : E.Lawful) (pp : RPPP G1) (k : ℕ) (hpp : pp.Sized k)
    (V : G1) (v : List Zr) (r : Zr) (hv : v.length = 2 ^ k) (hrange : ∀ x ∈ v, x.val < 2 ^ 63)
    (rp : RangeProof G1) (ipaPP : PP G1) (x y0 y1 : Zr)
    (hx : rangeProofRO1 E pp V rp.W rp.Q = some x)
    (hy0 : rangeY E pp rp.Q rp.R x 0 = some y0) (hy1 : rangeY E pp rp.Q rp.R x 1 = some y1)
    (rnd : RangeRand) (hrnd : rnd.WellFormed (2 ^ k)) (h : proveRangeUnchecked E pp rnd V v r = some (rp, ipaPP)) :
    ∃ (rdx : PP G1) (Δ : List (G1 × G1 × G1)) (xs : List Zr) (u : Zr) (f : List Zr),
      rangeRdxPP E pp = some rdx ∧
      iterativeReduce E rdx (mask v rnd.w x) (rp.γ • pp.F + V + x • rp.W) = some (Δ, xs, u) ∧
      rangeF (2 ^ k) xs.reverse = some f ∧
      rp.Q = rnd.ν • pp.F + dot (rangeBits 63 v ++ rnd.w) pp.Hs
        + dot (List.zipWith (· - ·) (List.replicate (2 ^ k * 63) 1) (rangeBits 63 v)) (pp.Fs.take (2 ^ k * 63)) ∧
      rp.R = rnd.η • pp.F + dot rnd.s pp.Hs + dot rnd.t (pp.Fs.take (2 ^ k * 63)) ∧
      rp.C1 = (dot ((List.zipWith (· + ·) (rangeBits 63 v ++ rnd.w) (Vec.mul (List.replicate (2 ^ k * 63) 1) y1
          ++ List.replicate (2 ^ k) 0)).take (2 ^ k * 63)) (List.zipWith (· * ·) (powerSeries (2 ^ k * 63) y0) rnd.t)
        + dot rnd.s (List.zipWith (· + ·) (List.zipWith (· + ·) (Vec.mul (rangeD 63 f ++ Vec.mul f x) (y1 * y1))
          (Vec.mul (powerSeries (2 ^ k * 63) y0 ++ List.replicate (2 ^ k) 0) y1))
          (List.zipWith (· * ·) (List.zipWith (· - ·) (List.replicate (2 ^ k * 63) 1) (rangeBits 63 v))
            (powerSeries (2 ^ k * 63) y0) ++ List.replicate (2 ^ k) 0))) • pp.G + rnd.τ1 • pp.H ∧
      rp.C2 = (dot (rnd.s.take (2 ^ k * 63)) (List.zipWith (· * ·) (powerSeries (2 ^ k * 63) y0) rnd.t)) • pp.G
        + rnd.τ2 • pp.H := by
  obtain ⟨W, Q, R, C1, C2, x₁, y0₁, y1₁, z₁, c, c1, c2, u, rdx, ipaPP₁, Δ, xs, f, d, B, wc, a, b, a', b', Fp, π,
    eW, eB, ewc, eQ, ex, erdx, -, ered, ef, lf, ed, eu, eR, ey0, ey1, ea', eb', ec1, ec2, eC1, eC2, -,
    -, -, -, -, -, -, -, -, -, -, -, eprove⟩ :=
    proveRangeUnchecked_eq E hE pp k hpp rnd hrnd V v hv hrange r
  rw [h] at eprove
  obtain ⟨e1, -⟩ := Prod.mk.inj (Option.some_inj.1 eprove)
  subst e1
  dsimp only at hx hy0 hy1 ⊢
  cases hx.symm.trans ex
  cases hy0.symm.trans ey0
  cases hy1.symm.trans ey1
  subst eB ewc ed ea' eb' ec1 ec2
  exact ⟨rdx, Δ, xs, u, f, erdx, ered, ef, eQ, eR, eC1, eC2⟩

/-- The random values are determined by the proof and the four masked ones. -/
theorem proveRange_unique (E : Curve G1 G2 GT) (hE : E.Lawful) (pp : RPPP G1) (k : ℕ) (hpp : pp.Sized k)
    (hF : pp.F ≠ 0) (hH : pp.H ≠ 0) (V : G1) (v : List Zr) (r : Zr) (hv : v.length = 2 ^ k)
    (hrange : ∀ x ∈ v, x.val < 2 ^ 63) (rp : RangeProof G1) (ipaPP ipaPP' : PP G1) (x y0 y1 z : Zr)
    (hx : rangeProofRO1 E pp V rp.W rp.Q = some x) (hx0 : x ≠ 0)
    (hy0 : rangeY E pp rp.Q rp.R x 0 = some y0) (hy1 : rangeY E pp rp.Q rp.R x 1 = some y1) (hz0 : z ≠ 0)
    (rnd rnd' : RangeRand) (hrnd : rnd.WellFormed (2 ^ k)) (hrnd' : rnd'.WellFormed (2 ^ k))
    (h : proveRangeUnchecked E pp rnd V v r = some (rp, ipaPP))
    (h' : proveRangeUnchecked E pp rnd' V v r = some (rp, ipaPP'))
    (m1 : mask v rnd.w x = mask v rnd'.w x) (m2 : r + x * rnd.rPrime = r + x * rnd'.rPrime)
    (m3 : mask (rangeBits 63 v ++ rnd.w) rnd.s z = mask (rangeBits 63 v ++ rnd'.w) rnd'.s z)
    (m4 : mask (List.zipWith (· - ·) (List.replicate (2 ^ k * 63) 1) (rangeBits 63 v)) rnd.t z
        = mask (List.zipWith (· - ·) (List.replicate (2 ^ k * 63) 1) (rangeBits 63 v)) rnd'.t z) : rnd = rnd' := by
  obtain ⟨rdx, Δ, xs, u, f, a1, a2, a3, a4, a5, a6, a7⟩ :=
    proveRange_reads E hE pp k hpp V v r hv hrange rp ipaPP x y0 y1 hx hy0 hy1 rnd hrnd h
  obtain ⟨rdx', Δ', xs', u', f', b1, b2, b3, b4, b5, b6, b7⟩ :=
    proveRange_reads E hE pp k hpp V v r hv hrange rp ipaPP' x y0 y1 hx hy0 hy1 rnd' hrnd' h'
  have lB : (rangeBits 63 v).length = 2 ^ k * 63 := by rw [rangeBits_length 63 v hrange, hv]
  obtain ⟨w, ρ, ν, η, s, t, τ1, τ2⟩ := rnd
  obtain ⟨w', ρ', ν', η', s', t', τ1', τ2'⟩ := rnd'
  obtain ⟨lw, ls, lt⟩ := hrnd
  obtain ⟨lw', ls', lt'⟩ := hrnd'
  dsimp only at *
  obtain rfl := mask_inj hx0 hv lw lw' m1
  obtain rfl : s = s' := mask_inj hz0 (by simp [lB, lw]) ls ls' m3
  obtain rfl : t = t' := mask_inj hz0 (by simp [lB]) lt lt' m4
  obtain rfl : ρ = ρ' := mul_left_cancel₀ hx0 (add_left_cancel m2)
  cases a1.symm.trans b1
  cases a2.symm.trans b2
  cases a3.symm.trans b3
  have cancel : ∀ {p q : Zr} {F D : G1}, F ≠ 0 → p • F + D = q • F + D → p = q := fun hF h =>
    smul_scalar_cancel hF (add_right_cancel h)
  obtain rfl : ν = ν' := by
    apply smul_scalar_cancel hF
    have := a4.symm.trans b4
    simpa using this
  obtain rfl : η = η' := by
    apply smul_scalar_cancel hF
    have := a5.symm.trans b5
    simpa using this
  obtain rfl : τ1 = τ1' := smul_scalar_cancel hH (add_left_cancel (a6.symm.trans b6))
  obtain rfl : τ2 = τ2' := smul_scalar_cancel hH (add_left_cancel (a7.symm.trans b7))
  rfl

theorem proveRange_some_iff (E : Curve G1 G2 GT) (pp : RPPP G1) (rnd : RangeRand) (V : G1) (v : List Zr) (r : Zr)
    (rp : RangeProof G1) : proveRange E pp rnd V v r = some rp ↔
      ∃ ipaPP, proveRangeUnchecked E pp rnd V v r = some (rp, ipaPP) ∧ rp.ipp.verify E ipaPP = some true := by
  unfold proveRange
  constructor
  · intro h
    obtain ⟨⟨rp', ipaPP⟩, h1, h⟩ := obind_elim h
    obtain ⟨b, h2, h⟩ := obind_elim h
    cases b
    · simp at h
    · simp at h
      subst h
      exact ⟨ipaPP, h1, h2⟩
  · rintro ⟨ipaPP, h1, h2⟩
    exact obind_step h1 (obind_step h2 rfl)

end PoL.BP
