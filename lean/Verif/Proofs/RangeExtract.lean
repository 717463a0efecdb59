import Verif.Spec.RangeTranscripts
import Verif.Proofs.RangeSound
import Verif.Proofs.IrSoundness
import Mathlib.Tactic.FieldSimp
import Mathlib.Tactic.Module

/-!
# Special soundness of the range proof: extractor and relation finder
-/

set_option linter.unusedSectionVars false

namespace PoL.BP

open Finset

variable {A : Type} [AddCommGroup A] [Module Zr A]

/-! ## Linear combinations of relations -/

def RangeRel.lin3 (a b c : Zr) (p q r : RangeRel) : RangeRel where
  f := a * p.f + b * q.f + c * r.f
  g := a * p.g + b * q.g + c * r.g
  h := a * p.h + b * q.h + c * r.h
  u := a * p.u + b * q.u + c * r.u
  gs i := a * p.gs i + b * q.gs i + c * r.gs i
  hs i := a * p.hs i + b * q.hs i + c * r.hs i
  fs i := a * p.fs i + b * q.fs i + c * r.fs i

theorem sum_lin3 (a b c : Zr) (p q r : ℕ → Zr) (G : ℕ → A) (n : ℕ) :
    ∑ i ∈ range n, (a * p i + b * q i + c * r i) • G i
      = a • ∑ i ∈ range n, p i • G i + b • ∑ i ∈ range n, q i • G i + c • ∑ i ∈ range n, r i • G i := by
  simp only [Finset.smul_sum, ← Finset.sum_add_distrib]
  refine Finset.sum_congr rfl fun i _ => ?_
  module

theorem RangeRel.eval_lin3 (a b c : Zr) (p q r : RangeRel) (g : RangeGens A) (n : ℕ) :
    (RangeRel.lin3 a b c p q r).eval g n = a • p.eval g n + b • q.eval g n + c • r.eval g n := by
  simp only [RangeRel.eval, RangeRel.lin3, sum_lin3]
  module

/-! ## Three values of `z` -/

/-- Weights of the second divided difference. -/
def mu (a b c : Zr) : Zr := ((a - b) * (a - c))⁻¹

/-- Weights of the interpolation at zero. -/
def lam (a b c : Zr) : Zr := b * c * ((b - a) * (c - a))⁻¹

section
variable {a b c : Zr} (hab : a ≠ b) (hac : a ≠ c) (hbc : b ≠ c)
include hab hac hbc

theorem mu_sum : mu a b c + mu b a c + mu c a b = 0 := by
  have := sub_ne_zero.2 hab; have := sub_ne_zero.2 hac; have := sub_ne_zero.2 hbc
  have := sub_ne_zero.2 hab.symm; have := sub_ne_zero.2 hac.symm; have := sub_ne_zero.2 hbc.symm
  simp only [mu]
  field_simp
  ring

theorem mu_sum_z : mu a b c * a + mu b a c * b + mu c a b * c = 0 := by
  have := sub_ne_zero.2 hab; have := sub_ne_zero.2 hac; have := sub_ne_zero.2 hbc
  have := sub_ne_zero.2 hab.symm; have := sub_ne_zero.2 hac.symm; have := sub_ne_zero.2 hbc.symm
  simp only [mu]
  field_simp
  ring

theorem lam_sum : lam a b c + lam b a c + lam c a b = 1 := by
  have := sub_ne_zero.2 hab; have := sub_ne_zero.2 hac; have := sub_ne_zero.2 hbc
  have := sub_ne_zero.2 hab.symm; have := sub_ne_zero.2 hac.symm; have := sub_ne_zero.2 hbc.symm
  simp only [lam]
  field_simp
  ring

theorem lam_sum_z : lam a b c * a + lam b a c * b + lam c a b * c = 0 := by
  have := sub_ne_zero.2 hab; have := sub_ne_zero.2 hac; have := sub_ne_zero.2 hbc
  have := sub_ne_zero.2 hab.symm; have := sub_ne_zero.2 hac.symm; have := sub_ne_zero.2 hbc.symm
  simp only [lam]
  field_simp
  ring

theorem lam_sum_z2 : lam a b c * a ^ 2 + lam b a c * b ^ 2 + lam c a b * c ^ 2 = 0 := by
  have := sub_ne_zero.2 hab; have := sub_ne_zero.2 hac; have := sub_ne_zero.2 hbc
  have := sub_ne_zero.2 hab.symm; have := sub_ne_zero.2 hac.symm; have := sub_ne_zero.2 hbc.symm
  simp only [lam]
  field_simp
  ring

/-- Three values without second difference are affine in `z`. -/
theorem affine_of_mu {p q r : Zr} (h : mu a b c * p + mu b a c * q + mu c a b * r = 0) :
    ∃ s, p = (lam a b c * p + lam b a c * q + lam c a b * r) + a * s ∧
      q = (lam a b c * p + lam b a c * q + lam c a b * r) + b * s ∧
      r = (lam a b c * p + lam b a c * q + lam c a b * r) + c * s := by
  have d1 := sub_ne_zero.2 hab; have d2 := sub_ne_zero.2 hac; have d3 := sub_ne_zero.2 hbc
  have d4 := sub_ne_zero.2 hab.symm; have d5 := sub_ne_zero.2 hac.symm; have d6 := sub_ne_zero.2 hbc.symm
  have hr : r = p + (c - a) * ((p - q) * (a - b)⁻¹) := by
    have e : p * (b - c) - q * (a - c) + r * (a - b) = 0 := by
      have e1 : mu a b c * ((a - b) * (a - c)) = 1 := inv_mul_cancel₀ (mul_ne_zero d1 d2)
      have e2 : mu b a c * ((b - a) * (b - c)) = 1 := inv_mul_cancel₀ (mul_ne_zero d4 d3)
      have e3 : mu c a b * ((c - a) * (c - b)) = 1 := inv_mul_cancel₀ (mul_ne_zero d5 d6)
      linear_combination (a - b) * (a - c) * (b - c) * h - p * (b - c) * e1 + q * (a - c) * e2 - r * (a - b) * e3
    field_simp
    linear_combination e
  have hq : q = p + (b - a) * ((p - q) * (a - b)⁻¹) := by field_simp; ring
  generalize hs : (p - q) * (a - b)⁻¹ = s at hr hq
  have e : lam a b c * p + lam b a c * q + lam c a b * r = p - a * s := by
    rw [hr, hq]
    linear_combination (p - a * s) * lam_sum hab hac hbc + s * lam_sum_z hab hac hbc
  refine ⟨s, ?_, ?_, ?_⟩ <;> rw [e]
  · ring
  · rw [hq]; ring
  · rw [hr]; ring

end

/-! ## One inner-product argument -/

theorem sum_indicator (n : ℕ) (y : Zr) (G : ℕ → A) :
    ∑ i ∈ range (n * 64), (if i < n * 63 then y else 0) • G i = ∑ i ∈ range (n * 63), y • G i := by
  rw [show n * 64 = n * 63 + n by ring, Finset.sum_range_add]
  have : ∑ x ∈ range n, (if n * 63 + x < n * 63 then y else 0) • G (n * 63 + x) = 0 := by
    refine Finset.sum_eq_zero fun i _ => ?_
    rw [if_neg (by omega), zero_smul]
  rw [this, add_zero]
  exact Finset.sum_congr rfl fun i hi => by rw [if_pos (Finset.mem_range.1 hi)]

theorem dot_range (v : List Zr) (G : ℕ → A) (n : ℕ) (hv : v.length = n) :
    dot v ((List.range n).map G) = ∑ i ∈ range n, v.getD i 0 • G i := by
  rw [dot_eq_sum_range v _ n hv (by simp)]
  refine Finset.sum_congr rfl fun i hi => ?_
  have := Finset.mem_range.1 hi
  simp [List.getD_eq_getElem?_getD, this]

/-- The opening of `Q + z·R` found from one inner-product tree. -/
def zOpen (n : ℕ) (d : ℕ → Zr) (y0 y1 x0 : Zr) (m : ZAnswer Unit) : RangeRel where
  f := - m.ρ
  g := 0
  h := 0
  u := x0 * ((extract m.tree).c - m.c)
  gs _ := 0
  hs i := (extract m.tree).a.getD i 0 - if i < n * 63 then y1 else 0
  fs i := ((extract m.tree).b.getD i 0 - y1 ^ 2 * d i) * y0⁻¹ ^ i - if i < n * 63 then y1 else 0

/-- A relation of the inner-product argument, in terms of the generators of the range proof. -/
def convert (y0 x0 : Zr) (p : Rep) : RangeRel where
  f := 0
  g := 0
  h := 0
  u := x0 * p.c
  gs _ := 0
  hs i := p.a.getD i 0
  fs i := p.b.getD i 0 * y0⁻¹ ^ i

theorem convert_eval (g : RangeGens A) (n : ℕ) (y0 x0 : Zr) (p : Rep) (hp : p.Len (n * 64)) :
    (convert y0 x0 p).eval g n = p.eval ((List.range (n * 64)).map g.Hs)
      ((List.range (n * 64)).map fun i => y0⁻¹ ^ i • g.Fs i) (x0 • g.U) := by
  simp only [RangeRel.eval, convert, Rep.eval]
  rw [dot_range _ _ _ hp.1, dot_range _ _ _ hp.2]
  have e : ∀ i, p.b.getD i 0 • y0⁻¹ ^ i • g.Fs i = (p.b.getD i 0 * y0⁻¹ ^ i) • g.Fs i := fun i => by rw [mul_smul]
  simp only [e, zero_smul, Finset.sum_const_zero]
  module

theorem zOpen_eval (g : RangeGens A) (n : ℕ) (Q R : A) (r : List Zr) (x y0 y1 x0 : Zr) (m : ZAnswer A)
    (hlen : (extract m.tree.scalars).Len (n * 64))
    (h : rangeStatement g n Q R r x y0 y1 m.z m.ρ + (x0 * m.c) • g.U
      = (extract m.tree.scalars).eval ((List.range (n * 64)).map g.Hs)
          ((List.range (n * 64)).map fun i => y0⁻¹ ^ i • g.Fs i) (x0 • g.U)) :
    (zOpen n (rangeWeight n r x) y0 y1 x0 m.scalars).eval g n = Q + m.z • R := by
  simp only [RangeRel.eval, zOpen, ZAnswer.scalars]
  simp only [Rep.eval, rangeStatement] at h
  rw [dot_range _ _ _ hlen.1, dot_range _ _ _ hlen.2] at h
  have e1 : ∑ i ∈ range (n * 64), ((extract m.tree.scalars).a.getD i 0 - if i < n * 63 then y1 else 0) • g.Hs i
      = ∑ i ∈ range (n * 64), (extract m.tree.scalars).a.getD i 0 • g.Hs i
        - ∑ i ∈ range (n * 63), y1 • g.Hs i := by
    rw [← sum_indicator n y1 g.Hs, ← Finset.sum_sub_distrib]
    exact Finset.sum_congr rfl fun i _ => by rw [sub_smul]
  have e2 : ∑ i ∈ range (n * 64), (((extract m.tree.scalars).b.getD i 0 - y1 ^ 2 * rangeWeight n r x i) * y0⁻¹ ^ i
        - if i < n * 63 then y1 else 0) • g.Fs i
      = ∑ i ∈ range (n * 64), (extract m.tree.scalars).b.getD i 0 • (y0⁻¹ ^ i • g.Fs i)
        - ∑ i ∈ range (n * 64), (y1 ^ 2 * rangeWeight n r x i) • (y0⁻¹ ^ i • g.Fs i)
        - ∑ i ∈ range (n * 63), y1 • g.Fs i := by
    rw [← sum_indicator n y1 g.Fs, ← Finset.sum_sub_distrib, ← Finset.sum_sub_distrib]
    exact Finset.sum_congr rfl fun i _ => by module
  rw [e1, e2]
  simp only [zero_smul, Finset.sum_const_zero]
  linear_combination (norm := module) -h

/-! ## The answers to one triple `(y0, y1, x0)` -/

/-- The opening of `Q` interpolated from three values of `z`. -/
def yOpen (n : ℕ) (d : ℕ → Zr) (y0 y1 : Zr) (m : YAnswer Unit) : RangeRel :=
  let z q := (m.zs q).z
  let w q := zOpen n d y0 y1 m.x0 (m.zs q)
  RangeRel.lin3 (lam (z 0) (z 1) (z 2)) (lam (z 1) (z 0) (z 2)) (lam (z 2) (z 0) (z 1)) (w 0) (w 1) (w 2)

/-- The second difference of the openings of `Q + z·R`. -/
def yDiff (n : ℕ) (d : ℕ → Zr) (y0 y1 : Zr) (m : YAnswer Unit) : RangeRel :=
  let z q := (m.zs q).z
  let w q := zOpen n d y0 y1 m.x0 (m.zs q)
  RangeRel.lin3 (mu (z 0) (z 1) (z 2)) (mu (z 1) (z 0) (z 2)) (mu (z 2) (z 0) (z 1)) (w 0) (w 1) (w 2)

/-- The relation between `G` and `H` from the final equations. -/
def yFinal (c0 : Zr) (m : YAnswer Unit) : RangeRel where
  f := 0
  g := c0 - (lam (m.zs 0).z (m.zs 1).z (m.zs 2).z * (m.zs 0).c + lam (m.zs 1).z (m.zs 0).z (m.zs 2).z * (m.zs 1).c
    + lam (m.zs 2).z (m.zs 0).z (m.zs 1).z * (m.zs 2).c)
  h := - (lam (m.zs 0).z (m.zs 1).z (m.zs 2).z * (m.zs 0).τ + lam (m.zs 1).z (m.zs 0).z (m.zs 2).z * (m.zs 1).τ
    + lam (m.zs 2).z (m.zs 0).z (m.zs 1).z * (m.zs 2).τ)
  u := 0
  gs _ := 0
  hs _ := 0
  fs _ := 0

/-- The relations found from the answers to one triple; `ref` is an opening of `Q`. -/
def yRels (n : ℕ) (d : ℕ → Zr) (c0 y0 y1 : Zr) (ref : RangeRel) (m : YAnswer Unit) : List RangeRel :=
  [yDiff n d y0 y1 m, RangeRel.lin3 1 (-1) 0 (yOpen n d y0 y1 m) ref ref, yFinal c0 m] ++
    (List.finRange 3).flatMap fun q => (relations (m.zs q).tree).map (convert y0 m.x0)

/-- What acceptance of the answers means for the generators. -/
structure YAccepted (g : RangeGens A) (k : ℕ) (Q R : A) (r : List Zr) (x u y0 y1 : Zr) (m : YAnswer A) : Prop where
  ne : ∀ q q', q ≠ q' → (m.zs q).z ≠ (m.zs q').z
  wf : ∀ q, (m.zs q).tree.WellFormed (k + 6)
  ipa : ∀ q, ∀ l ∈ (m.zs q).tree.paths, acceptsWith (m.x0 • g.U) l.1
    (rangeStatement g (2 ^ k) Q R r x y0 y1 (m.zs q).z (m.zs q).ρ + (m.x0 * (m.zs q).c) • g.U)
    ((List.range (2 ^ k * 64)).map g.Hs) ((List.range (2 ^ k * 64)).map fun i => y0⁻¹ ^ i • g.Fs i) l.2.1 l.2.2
  fin : ∀ q, (m.zs q).z • m.C1 + (m.zs q).z ^ 2 • m.C2 + rangeConstant (2 ^ k) r x u y0 y1 • g.G
    = (m.zs q).c • g.G + (m.zs q).τ • g.H

section
variable {g : RangeGens A} {k : ℕ} {Q R : A} {r : List Zr} {x u y0 y1 : Zr} {m : YAnswer A}

theorem YAccepted.tree (h : YAccepted g k Q R r x u y0 y1 m) (q : Fin 3) :
    (extract (m.zs q).tree.scalars).Len (2 ^ (k + 6)) ∧
    rangeStatement g (2 ^ k) Q R r x y0 y1 (m.zs q).z (m.zs q).ρ + (m.x0 * (m.zs q).c) • g.U
      = (extract (m.zs q).tree.scalars).eval ((List.range (2 ^ k * 64)).map g.Hs)
        ((List.range (2 ^ k * 64)).map fun i => y0⁻¹ ^ i • g.Fs i) (m.x0 • g.U) ∧
    (∀ p ∈ relations (m.zs q).tree.scalars, p.Len (2 ^ (k + 6)) ∧ p.eval ((List.range (2 ^ k * 64)).map g.Hs)
        ((List.range (2 ^ k * 64)).map fun i => y0⁻¹ ^ i • g.Fs i) (m.x0 • g.U) = 0) ∧
    ((∀ p ∈ relations (m.zs q).tree.scalars, p.IsZero) → (extract (m.zs q).tree.scalars).c
      = dot (extract (m.zs q).tree.scalars).a (extract (m.zs q).tree.scalars).b) :=
  extract_sound (m.x0 • g.U) (k + 6) (m.zs q).tree _ ((List.range (2 ^ k * 64)).map g.Hs)
    ((List.range (2 ^ k * 64)).map fun i => y0⁻¹ ^ i • g.Fs i) (h.wf q) (by simp [pow_add]) (by simp [pow_add]) (h.ipa q)

theorem YAccepted.len (h : YAccepted g k Q R r x u y0 y1 m) (q : Fin 3) :
    (extract (m.zs q).tree.scalars).Len (2 ^ k * 64) := by
  have := (h.tree q).1
  rwa [show 2 ^ (k + 6) = 2 ^ k * 64 by rw [pow_add]; norm_num] at this

theorem YAccepted.opening (h : YAccepted g k Q R r x u y0 y1 m) (q : Fin 3) :
    (zOpen (2 ^ k) (rangeWeight (2 ^ k) r x) y0 y1 m.x0 (m.zs q).scalars).eval g (2 ^ k) = Q + (m.zs q).z • R :=
  zOpen_eval g (2 ^ k) Q R r x y0 y1 m.x0 (m.zs q) (h.len q) (h.tree q).2.1

theorem YAccepted.yOpen_eval (h : YAccepted g k Q R r x u y0 y1 m) :
    (yOpen (2 ^ k) (rangeWeight (2 ^ k) r x) y0 y1 m.scalars).eval g (2 ^ k) = Q := by
  simp only [yOpen, RangeRel.eval_lin3, YAnswer.scalars, h.opening]
  simp only [ZAnswer.scalars]
  have h1 := lam_sum (h.ne 0 1 (by decide)) (h.ne 0 2 (by decide)) (h.ne 1 2 (by decide))
  have h2 := lam_sum_z (h.ne 0 1 (by decide)) (h.ne 0 2 (by decide)) (h.ne 1 2 (by decide))
  set l0 := lam (m.zs 0).z (m.zs 1).z (m.zs 2).z
  set l1 := lam (m.zs 1).z (m.zs 0).z (m.zs 2).z
  set l2 := lam (m.zs 2).z (m.zs 0).z (m.zs 1).z
  calc _ = (l0 + l1 + l2) • Q + (l0 * (m.zs 0).z + l1 * (m.zs 1).z + l2 * (m.zs 2).z) • R := by module
    _ = Q := by rw [h1, h2]; module

theorem YAccepted.rels_hold (h : YAccepted g k Q R r x u y0 y1 m) (ref : RangeRel)
    (href : ref.eval g (2 ^ k) = Q) :
    ∀ p ∈ yRels (2 ^ k) (rangeWeight (2 ^ k) r x) (rangeConstant (2 ^ k) r x u y0 y1) y0 y1 ref m.scalars,
      p.eval g (2 ^ k) = 0 := by
  have n01 := h.ne 0 1 (by decide)
  have n02 := h.ne 0 2 (by decide)
  have n12 := h.ne 1 2 (by decide)
  intro p hp
  simp only [yRels, List.mem_append, List.mem_cons, List.not_mem_nil, or_false, List.mem_flatMap, List.mem_map] at hp
  rcases hp with (rfl | rfl | rfl) | ⟨q, -, w, hw, rfl⟩
  · simp only [yDiff, RangeRel.eval_lin3, YAnswer.scalars, h.opening]
    simp only [ZAnswer.scalars]
    have h1 := mu_sum n01 n02 n12
    have h2 := mu_sum_z n01 n02 n12
    set l0 := mu (m.zs 0).z (m.zs 1).z (m.zs 2).z
    set l1 := mu (m.zs 1).z (m.zs 0).z (m.zs 2).z
    set l2 := mu (m.zs 2).z (m.zs 0).z (m.zs 1).z
    calc _ = (l0 + l1 + l2) • Q + (l0 * (m.zs 0).z + l1 * (m.zs 1).z + l2 * (m.zs 2).z) • R := by module
      _ = 0 := by rw [h1, h2]; module
  · rw [RangeRel.eval_lin3, h.yOpen_eval, href]
    module
  · simp only [RangeRel.eval, yFinal, YAnswer.scalars, ZAnswer.scalars, zero_smul, Finset.sum_const_zero]
    have h1 := lam_sum n01 n02 n12
    have h2 := lam_sum_z n01 n02 n12
    have h3 := lam_sum_z2 n01 n02 n12
    have f0 := h.fin 0
    have f1 := h.fin 1
    have f2 := h.fin 2
    set c0 := rangeConstant (2 ^ k) r x u y0 y1
    set l0 := lam (m.zs 0).z (m.zs 1).z (m.zs 2).z
    set l1 := lam (m.zs 1).z (m.zs 0).z (m.zs 2).z
    set l2 := lam (m.zs 2).z (m.zs 0).z (m.zs 1).z
    have e : l0 • ((m.zs 0).z • m.C1 + (m.zs 0).z ^ 2 • m.C2 + c0 • g.G)
        + l1 • ((m.zs 1).z • m.C1 + (m.zs 1).z ^ 2 • m.C2 + c0 • g.G)
        + l2 • ((m.zs 2).z • m.C1 + (m.zs 2).z ^ 2 • m.C2 + c0 • g.G) = c0 • g.G := by
      calc _ = (l0 * (m.zs 0).z + l1 * (m.zs 1).z + l2 * (m.zs 2).z) • m.C1
            + (l0 * (m.zs 0).z ^ 2 + l1 * (m.zs 1).z ^ 2 + l2 * (m.zs 2).z ^ 2) • m.C2
            + ((l0 + l1 + l2) * c0) • g.G := by module
        _ = _ := by rw [h1, h2, h3]; module
    rw [f0, f1, f2] at e
    rw [sub_smul, ← e]
    module
  · have := (h.tree q).2.2.1 w hw
    rw [convert_eval _ _ _ _ _ (by
      have := this.1
      rwa [show 2 ^ (k + 6) = 2 ^ k * 64 by rw [pow_add]; norm_num] at this)]
    exact this.2

theorem getD_of_zero {l : List Zr} (h : ∀ i < l.length, l.getD i 0 = 0) : ∀ y ∈ l, y = 0 := by
  intro y hy
  obtain ⟨i, hi, rfl⟩ := List.getElem_of_mem hy
  simpa [List.getD_eq_getElem?_getD, hi] using h i hi

/-- If all relations found are trivial, the committed vectors satisfy the equation, up to the coefficient of `U`
in `Q`. -/
theorem YAccepted.value (h : YAccepted g k Q R r x u y0 y1 m) (hy0 : y0 ≠ 0) (hx0 : m.x0 ≠ 0) (ref : RangeRel)
    (hz : ∀ p ∈ yRels (2 ^ k) (rangeWeight (2 ^ k) r x) (rangeConstant (2 ^ k) r x u y0 y1) y0 y1 ref m.scalars,
      p.IsZero (2 ^ k)) :
    m.x0 * (∑ i ∈ range (2 ^ k * 64), (ref.hs i + if i < 2 ^ k * 63 then y1 else 0) *
        ((ref.fs i + if i < 2 ^ k * 63 then y1 else 0) * y0 ^ i + y1 ^ 2 * rangeWeight (2 ^ k) r x i)
      - rangeConstant (2 ^ k) r x u y0 y1) = ref.u := by
  have n01 := h.ne 0 1 (by decide)
  have n02 := h.ne 0 2 (by decide)
  have n12 := h.ne 1 2 (by decide)
  simp only [yRels, List.mem_append, List.mem_cons, List.not_mem_nil, or_false, List.mem_flatMap, List.mem_map] at hz
  have hd := hz _ (Or.inl (Or.inl rfl))
  have hq := hz _ (Or.inl (Or.inr (Or.inl rfl)))
  have hf := hz _ (Or.inl (Or.inr (Or.inr rfl)))
  have hp : (2 : ℕ) ^ (k + 6) = 2 ^ k * 64 := by rw [pow_add]; norm_num
  have hc : ∀ q, (extract (m.zs q).tree.scalars).c
      = ∑ i ∈ range (2 ^ k * 64), (extract (m.zs q).tree.scalars).a.getD i 0 * (extract (m.zs q).tree.scalars).b.getD i 0 := by
    intro q
    rw [(h.tree q).2.2.2, dot_eq_sum_range _ _ (2 ^ k * 64) (h.len q).1 (h.len q).2]
    · rfl
    · intro w hw
      have hl := ((h.tree q).2.2.1 w hw).1
      rw [hp] at hl
      have hcz := hz (convert y0 m.x0 w) (Or.inr ⟨q, List.mem_finRange q, w, hw, rfl⟩)
      refine ⟨getD_of_zero fun i hi => hcz.2.2.2.2.2.1 i (by rw [← hl.1]; exact hi), getD_of_zero fun i hi => ?_,
        (mul_eq_zero.1 hcz.2.2.2.1).resolve_left hx0⟩
      have := hcz.2.2.2.2.2.2 i (by rw [← hl.2]; exact hi)
      exact (mul_eq_zero.1 this).resolve_right (pow_ne_zero _ (inv_ne_zero hy0))
  -- the openings are affine in `z`
  have hA : ∀ i < 2 ^ k * 64, ∃ s, ∀ q, (extract (m.zs q).tree.scalars).a.getD i 0
      = (ref.hs i + if i < 2 ^ k * 63 then y1 else 0) + (m.zs q).z * s := by
    intro i hi
    obtain ⟨s, e0, e1, e2⟩ := affine_of_mu n01 n02 n12 (hd.2.2.2.2.2.1 i hi)
    have e := hq.2.2.2.2.2.1 i hi
    simp only [RangeRel.lin3, yOpen, YAnswer.scalars, ZAnswer.scalars] at e
    simp only [YAnswer.scalars, ZAnswer.scalars] at e0 e1 e2
    refine ⟨s, fun q => ?_⟩
    match q with
    | 0 =>
      simp only [zOpen] at e e0 ⊢
      linear_combination e0 + e
    | 1 =>
      simp only [zOpen] at e e1 ⊢
      linear_combination e1 + e
    | 2 =>
      simp only [zOpen] at e e2 ⊢
      linear_combination e2 + e
  have hB : ∀ i < 2 ^ k * 64, ∃ s, ∀ q, (extract (m.zs q).tree.scalars).b.getD i 0
      = ((ref.fs i + if i < 2 ^ k * 63 then y1 else 0) * y0 ^ i + y1 ^ 2 * rangeWeight (2 ^ k) r x i) + (m.zs q).z * s := by
    intro i hi
    obtain ⟨s, e0, e1, e2⟩ := affine_of_mu n01 n02 n12 (hd.2.2.2.2.2.2 i hi)
    have e := hq.2.2.2.2.2.2 i hi
    simp only [RangeRel.lin3, yOpen, YAnswer.scalars, ZAnswer.scalars] at e
    simp only [YAnswer.scalars, ZAnswer.scalars] at e0 e1 e2
    have hy : y0⁻¹ ^ i * y0 ^ i = 1 := by rw [← mul_pow, inv_mul_cancel₀ hy0, one_pow]
    refine ⟨s * y0 ^ i, fun q => ?_⟩
    match q with
    | 0 =>
      simp only [zOpen] at e e0 ⊢
      linear_combination y0 ^ i * (e0 + e) - ((extract (m.zs 0).tree.scalars).b.getD i 0 - y1 ^ 2 * rangeWeight (2 ^ k) r x i) * hy
    | 1 =>
      simp only [zOpen] at e e1 ⊢
      linear_combination y0 ^ i * (e1 + e) - ((extract (m.zs 1).tree.scalars).b.getD i 0 - y1 ^ 2 * rangeWeight (2 ^ k) r x i) * hy
    | 2 =>
      simp only [zOpen] at e e2 ⊢
      linear_combination y0 ^ i * (e2 + e) - ((extract (m.zs 2).tree.scalars).b.getD i 0 - y1 ^ 2 * rangeWeight (2 ^ k) r x i) * hy
  have hU : ∃ s, ∀ q, m.x0 * ((extract (m.zs q).tree.scalars).c - (m.zs q).c) = ref.u + (m.zs q).z * s := by
    obtain ⟨s, e0, e1, e2⟩ := affine_of_mu n01 n02 n12 hd.2.2.2.1
    have e := hq.2.2.2.1
    simp only [RangeRel.lin3, yOpen, YAnswer.scalars, ZAnswer.scalars] at e
    simp only [YAnswer.scalars, ZAnswer.scalars] at e0 e1 e2
    refine ⟨s, fun q => ?_⟩
    match q with
    | 0 =>
      simp only [zOpen] at e e0 ⊢
      linear_combination e0 + e
    | 1 =>
      simp only [zOpen] at e e1 ⊢
      linear_combination e1 + e
    | 2 =>
      simp only [zOpen] at e e2 ⊢
      linear_combination e2 + e
  choose! s hs using hA
  choose! t ht using hB
  obtain ⟨w, hw⟩ := hU
  obtain ⟨a, ha⟩ : ∃ a : ℕ → Zr, a = fun i => ref.hs i + if i < 2 ^ k * 63 then y1 else 0 := ⟨_, rfl⟩
  obtain ⟨b, hb⟩ : ∃ b : ℕ → Zr, b = fun i => (ref.fs i + if i < 2 ^ k * 63 then y1 else 0) * y0 ^ i
    + y1 ^ 2 * rangeWeight (2 ^ k) r x i := ⟨_, rfl⟩
  have hq' : ∀ q, m.x0 * (∑ i ∈ range (2 ^ k * 64), a i * b i
        + (m.zs q).z * ∑ i ∈ range (2 ^ k * 64), (a i * t i + s i * b i)
        + (m.zs q).z ^ 2 * ∑ i ∈ range (2 ^ k * 64), s i * t i - (m.zs q).c) = ref.u + (m.zs q).z * w := by
    intro q
    rw [← hw q, hc q]
    congr 2
    rw [Finset.mul_sum, Finset.mul_sum, ← Finset.sum_add_distrib, ← Finset.sum_add_distrib]
    refine Finset.sum_congr rfl fun i hi => ?_
    rw [hs i (Finset.mem_range.1 hi) q, ht i (Finset.mem_range.1 hi) q, ha, hb]
    ring
  have hg := hf.2.1
  simp only [yFinal, YAnswer.scalars, ZAnswer.scalars] at hg
  have h1 := lam_sum n01 n02 n12
  have h2 := lam_sum_z n01 n02 n12
  have h3 := lam_sum_z2 n01 n02 n12
  have q0 := hq' 0
  have q1 := hq' 1
  have q2 := hq' 2
  have goal : m.x0 * (∑ i ∈ range (2 ^ k * 64), a i * b i - rangeConstant (2 ^ k) r x u y0 y1) = ref.u := by
    set c0 := rangeConstant (2 ^ k) r x u y0 y1
    set l0 := lam (m.zs 0).z (m.zs 1).z (m.zs 2).z
    set l1 := lam (m.zs 1).z (m.zs 0).z (m.zs 2).z
    set l2 := lam (m.zs 2).z (m.zs 0).z (m.zs 1).z
    set K0 := ∑ i ∈ range (2 ^ k * 64), a i * b i
    set K1 := ∑ i ∈ range (2 ^ k * 64), (a i * t i + s i * b i)
    set K2 := ∑ i ∈ range (2 ^ k * 64), s i * t i
    linear_combination l0 * q0 + l1 * q1 + l2 * q2 - (m.x0 * K0 - ref.u) * h1 - (m.x0 * K1 - w) * h2
      - m.x0 * K2 * h3 - m.x0 * hg
  rw [ha, hb] at goal
  exact goal

end

/-- The equation in the form of the specification. -/
theorem rangeEquation_iff_value (n : ℕ) (qH qF v w : ℕ → Zr) (r : List Zr) (x u y0 y1 : Zr)
    (hu : u = ∑ i ∈ range n, (v i + x * w i) * bitMonomial r i) :
    (∑ i ∈ range (n * 64), (qH i + if i < n * 63 then y1 else 0) *
        ((qF i + if i < n * 63 then y1 else 0) * y0 ^ i + y1 ^ 2 * rangeWeight n r x i)
      = rangeConstant n r x u y0 y1) ↔ rangeEquation n qH qF v w x r y0 y1 := by
  rw [show n * 64 = n * 63 + n by ring, Finset.sum_range_add, rangeConstant]
  unfold rangeEquation
  have e1 : ∀ i ∈ range (n * 63), (qH i + if i < n * 63 then y1 else 0) *
        ((qF i + if i < n * 63 then y1 else 0) * y0 ^ i + y1 ^ 2 * rangeWeight n r x i)
      = (qH i + y1) * (y1 ^ 2 * (2 ^ (i % 63) * bitMonomial r (i / 63)) + (y1 + qF i) * y0 ^ i) := by
    intro i hi
    have := Finset.mem_range.1 hi
    rw [rangeWeight, if_pos this, if_pos this]
    ring
  have e2 : ∀ i ∈ range n, (qH (n * 63 + i) + if n * 63 + i < n * 63 then y1 else 0) *
        ((qF (n * 63 + i) + if n * 63 + i < n * 63 then y1 else 0) * y0 ^ (n * 63 + i)
          + y1 ^ 2 * rangeWeight n r x (n * 63 + i))
      = qH (n * 63 + i) * (y1 ^ 2 * (x * bitMonomial r i) + qF (n * 63 + i) * y0 ^ (n * 63 + i)) := by
    intro i hi
    have : ¬ n * 63 + i < n * 63 := by omega
    rw [rangeWeight, if_neg this, if_neg this, Nat.add_sub_cancel_left]
    ring
  have e3 : ∀ i ∈ range (n * 63), rangeWeight n r x i = 2 ^ (i % 63) * bitMonomial r (i / 63) := by
    intro i hi
    rw [rangeWeight, if_pos (Finset.mem_range.1 hi)]
  rw [Finset.sum_congr rfl e1, Finset.sum_congr rfl e2, Finset.sum_congr rfl e3, hu]

/-! ## The tree -/

theorem foldV_zero {n : ℕ} {a : List Zr} {x₁ x₂ : Zr} (ha : a.length = 2 * n) (hx : x₁ ≠ x₂)
    (h1 : ∀ y ∈ foldV 1 x₁ n a, y = 0) (h2 : ∀ y ∈ foldV 1 x₂ n a, y = 0) : ∀ y ∈ a, y = 0 := by
  have key : ∀ j (hj : j < n), a[j] = 0 ∧ a[n + j] = 0 := by
    intro j hj
    have e1 := h1 _ (List.getElem_mem (by rw [foldV_length ha]; exact hj : j < (foldV 1 x₁ n a).length))
    have e2 := h2 _ (List.getElem_mem (by rw [foldV_length ha]; exact hj : j < (foldV 1 x₂ n a).length))
    rw [foldV_getElem ha j hj] at e1 e2
    have e3 : (x₁ - x₂) * a[n + j] = 0 := by linear_combination e1 - e2
    have e4 := (mul_eq_zero.1 e3).resolve_left (sub_ne_zero.2 hx)
    rw [e4] at e1
    exact ⟨by simpa using e1, e4⟩
  intro y hy
  obtain ⟨i, hi, rfl⟩ := List.getElem_of_mem hy
  rcases Nat.lt_or_ge i n with h | h
  · exact (key i h).1
  · obtain ⟨j, rfl⟩ := Nat.exists_eq_add_of_le h
    exact (key j (by omega)).2

/-- The challenges of a tree determine a multilinear polynomial. -/
theorem ITree.determines {G : Type} [AddCommGroup G] [Module Zr G] : ∀ (k : ℕ) (t : ITree G), t.WellFormed k → ∀ a : List Zr, a.length = 2 ^ k →
    (∀ p ∈ t.paths, dot a (monomials (p.1.map Prod.fst)) = 0) → ∀ y ∈ a, y = 0
  | 0, .leaf u, _, a, ha, h => by
    obtain ⟨a0, rfl⟩ := List.length_eq_one_iff.1 ha
    have := h ([], u) (by simp [ITree.paths])
    simpa [monomials] using this
  | 0, .node .., h, _, _, _ => by simp [ITree.WellFormed] at h
  | _ + 1, .leaf _, h, _, _, _ => by simp [ITree.WellFormed] at h
  | k + 1, .node A B x₁ x₂ x₃ x₄ t₁ t₂ t₃ t₄, hwf, a, ha, h => by
    have pl1 := ITree.path_length k t₁ hwf.2.2.2.2.2.1
    have pl2 := ITree.path_length k t₂ hwf.2.2.2.2.2.2.1
    rw [irTree_node (Q := fun l _ => dot a (monomials (l.map Prod.fst)) = 0)] at h
    obtain ⟨hnd, -, -, -, -, w1, w2, w3, w4⟩ := hwf
    have hne : x₁ ≠ x₂ := by
      simp only [List.nodup_cons, List.mem_cons, not_or] at hnd
      exact hnd.1.1
    have ha' : a.length = 2 * 2 ^ k := by rw [ha, pow_succ, mul_comm]
    simp only [List.map_cons, monomials] at h
    refine foldV_zero ha' hne (ITree.determines k t₁ w1 _ (foldV_length ha') fun p hp => ?_)
      (ITree.determines k t₂ w2 _ (foldV_length ha') fun p hp => ?_)
    · rw [← dot_monomials (n := 2 ^ k) x₁ ha' (by rw [monomials_length, List.length_map, pl1 p hp])]
      exact h.1 p hp
    · rw [← dot_monomials (n := 2 ^ k) x₂ ha' (by rw [monomials_length, List.length_map, pl2 p hp])]
      exact h.2.1 p hp

theorem dot_monomials_sum (a : List Zr) (xs : List Zr) (k : ℕ) (ha : a.length = 2 ^ k) (hx : xs.length = k) :
    dot a (monomials xs) = ∑ i ∈ range (2 ^ k), a.getD i 0 * bitMonomial xs.reverse i := by
  rw [monomials_eq, hx, dot_range _ _ _ ha]
  rfl

theorem ITree.determines_sum {G : Type} [AddCommGroup G] [Module Zr G] (k : ℕ) (t : ITree G) (hwf : t.WellFormed k) (c : ℕ → Zr)
    (h : ∀ p ∈ t.paths, ∑ i ∈ range (2 ^ k), c i * bitMonomial (p.1.map Prod.fst).reverse i = 0) :
    ∀ i < 2 ^ k, c i = 0 := by
  have := ITree.determines k t hwf ((List.range (2 ^ k)).map c) (by simp) (fun p hp => by
    rw [dot_monomials_sum _ _ k (by simp) (by rw [List.length_map, ITree.path_length k t hwf p hp]), ← h p hp]
    refine Finset.sum_congr rfl fun i hi => ?_
    have := Finset.mem_range.1 hi
    simp [List.getD_eq_getElem?_getD, this])
  intro i hi
  exact this _ (List.mem_map.2 ⟨i, List.mem_range.2 hi, rfl⟩)

theorem ITree.scalars_paths {G : Type} : ∀ t : ITree G,
    t.scalars.paths = t.paths.map fun p => (p.1.map fun s => (s.1, (), ()), p.2)
  | .leaf u => by simp [ITree.scalars, ITree.paths]
  | .node A B x₁ x₂ x₃ x₄ t₁ t₂ t₃ t₄ => by
    simp [ITree.scalars, ITree.paths, scalars_paths t₁, scalars_paths t₂, scalars_paths t₃, scalars_paths t₄,
      List.map_map, Function.comp_def]

theorem ITree.paths_ne_nil {G : Type} : ∀ t : ITree G, t.paths ≠ []
  | .leaf u => by simp [ITree.paths]
  | .node A B x₁ x₂ x₃ x₄ t₁ t₂ t₃ t₄ => by simp [ITree.paths, paths_ne_nil t₁]

theorem TTree.paths_ne_nil {G : Type} : ∀ t : TTree G, t.paths ≠ []
  | .leaf a b => by simp [TTree.paths]
  | .node A B x₁ x₂ x₃ x₄ t₁ t₂ t₃ t₄ => by simp [TTree.paths, paths_ne_nil t₁]

/-- The extracted opening of `V`: the coefficient of `F`, and the values. -/
def rangeOpening (t : RTree Unit) : Zr × (ℕ → Zr) :=
  let a := t.xs 0
  let b := t.xs 1
  (- (b.x * a.γ - a.x * b.γ) * (b.x - a.x)⁻¹,
    fun i => (b.x * (irExtract a.tree).getD i 0 - a.x * (irExtract b.tree).getD i 0) * (b.x - a.x)⁻¹)

/-- The opening of `Q` found from the first answers. -/
def rangeRef (k : ℕ) (t : RTree Unit) : RangeRel :=
  let p := (t.xs 0).tree.paths.headD ([], 0)
  let b := (t.xs 0).next (p.1.map Prod.fst)
  let y0 := b.S0.headD 0
  let y1 := (b.S1 y0).headD 0
  yOpen (2 ^ k) (rangeWeight (2 ^ k) (p.1.map Prod.fst).reverse (t.xs 0).x) y0 y1 (b.ans y0 y1 0)

/-- All relations found from a tree. -/
def rangeRels (k : ℕ) (t : RTree Unit) : List RangeRel :=
  (List.finRange 2).flatMap fun j =>
    ((irRelations (t.xs j).tree).map fun l => ⟨0, 0, 0, 0, fun i => l.getD i 0, fun _ => 0, fun _ => 0⟩) ++
    (t.xs j).tree.paths.flatMap fun p =>
      let b := (t.xs j).next (p.1.map Prod.fst)
      let r := (p.1.map Prod.fst).reverse
      b.S0.flatMap fun y0 => (b.S1 y0).flatMap fun y1 => (List.finRange 2).flatMap fun e =>
        yRels (2 ^ k) (rangeWeight (2 ^ k) r (t.xs j).x) (rangeConstant (2 ^ k) r (t.xs j).x p.2 y0 y1) y0 y1
          (rangeRef k t) (b.ans y0 y1 e)

theorem mem_rangeRels_ir {k : ℕ} {t : RTree A} {j : Fin 2} {l : List Zr}
    (h : l ∈ irRelations (t.xs j).tree.scalars) :
    (⟨0, 0, 0, 0, fun i => l.getD i 0, fun _ => 0, fun _ => 0⟩ : RangeRel) ∈ rangeRels k t.scalars := by
  simp only [rangeRels, List.mem_flatMap, List.mem_append]
  exact ⟨j, List.mem_finRange j, Or.inl (List.mem_map.2 ⟨l, h, rfl⟩)⟩

theorem scalars_fst {G : Type} (l : List (Zr × G × G)) :
    (l.map fun s => (s.1, (), ())).map Prod.fst = l.map Prod.fst := by simp [Function.comp_def]

theorem mem_rangeRels_y {k : ℕ} {t : RTree A} {j : Fin 2} {p : List (Zr × A × A) × Zr}
    (hp : p ∈ (t.xs j).tree.paths) {y0 y1 : Zr} (h0 : y0 ∈ ((t.xs j).next (p.1.map Prod.fst)).S0)
    (h1 : y1 ∈ ((t.xs j).next (p.1.map Prod.fst)).S1 y0) (e : Fin 2) {q : RangeRel}
    (hq : q ∈ yRels (2 ^ k) (rangeWeight (2 ^ k) (p.1.map Prod.fst).reverse (t.xs j).x)
      (rangeConstant (2 ^ k) (p.1.map Prod.fst).reverse (t.xs j).x p.2 y0 y1) y0 y1 (rangeRef k t.scalars)
      (((t.xs j).next (p.1.map Prod.fst)).ans y0 y1 e).scalars) : q ∈ rangeRels k t.scalars := by
  simp only [rangeRels, List.mem_flatMap, List.mem_append]
  refine ⟨j, List.mem_finRange j, Or.inr ⟨(p.1.map fun s => (s.1, (), ()), p.2), ?_, y0, ?_, y1, ?_, e,
    List.mem_finRange e, ?_⟩⟩
  · simp only [RTree.scalars, XBranch.scalars, ITree.scalars_paths]
    exact List.mem_map.2 ⟨p, hp, rfl⟩
  · simp only [RTree.scalars, XBranch.scalars, scalars_fst]
    exact h0
  · simp only [RTree.scalars, XBranch.scalars, scalars_fst]
    exact h1
  · simp only [RTree.scalars, XBranch.scalars, scalars_fst]
    exact hq

theorem rangeRels_cases {k : ℕ} {t : RTree A} {q : RangeRel} (h : q ∈ rangeRels k t.scalars) :
    (∃ j, ∃ l ∈ irRelations (t.xs j).tree.scalars, q = ⟨0, 0, 0, 0, fun i => l.getD i 0, fun _ => 0, fun _ => 0⟩) ∨
    ∃ j, ∃ p ∈ (t.xs j).tree.paths, ∃ y0 ∈ ((t.xs j).next (p.1.map Prod.fst)).S0,
      ∃ y1 ∈ ((t.xs j).next (p.1.map Prod.fst)).S1 y0, ∃ e,
      q ∈ yRels (2 ^ k) (rangeWeight (2 ^ k) (p.1.map Prod.fst).reverse (t.xs j).x)
        (rangeConstant (2 ^ k) (p.1.map Prod.fst).reverse (t.xs j).x p.2 y0 y1) y0 y1 (rangeRef k t.scalars)
        (((t.xs j).next (p.1.map Prod.fst)).ans y0 y1 e).scalars := by
  simp only [rangeRels, List.mem_flatMap, List.mem_append] at h
  obtain ⟨j, -, h | ⟨p, hp, y0, h0, y1, h1, e, -, h⟩⟩ := h
  · obtain ⟨l, hl, rfl⟩ := List.mem_map.1 h
    exact Or.inl ⟨j, l, hl, rfl⟩
  · right
    simp only [RTree.scalars, XBranch.scalars, ITree.scalars_paths] at hp
    obtain ⟨p', hp', rfl⟩ := List.mem_map.1 hp
    simp only [RTree.scalars, XBranch.scalars, scalars_fst] at h0 h1 h
    exact ⟨j, p', hp', y0, h0, y1, h1, e, h⟩

section
variable {g : RangeGens A} {k : ℕ} {V : A} {t : RTree A}

theorem RTree.yAccepted (hwf : t.WellFormed k) (hacc : t.Accepted g (2 ^ k) V) {j : Fin 2}
    {p : List (Zr × A × A) × Zr} (hp : p ∈ (t.xs j).tree.paths) {y0 y1 : Zr}
    (h0 : y0 ∈ ((t.xs j).next (p.1.map Prod.fst)).S0) (h1 : y1 ∈ ((t.xs j).next (p.1.map Prod.fst)).S1 y0) (e : Fin 2) :
    YAccepted g k t.Q ((t.xs j).next (p.1.map Prod.fst)).R (p.1.map Prod.fst).reverse (t.xs j).x p.2 y0 y1
      (((t.xs j).next (p.1.map Prod.fst)).ans y0 y1 e) where
  ne := (((hwf.2 j).2 p hp).2.2.2 y0 h0).2.2 y1 h1 |>.2 e |>.2.1
  wf := (((hwf.2 j).2 p hp).2.2.2 y0 h0).2.2 y1 h1 |>.2 e |>.2.2
  ipa q l hl := (hacc j p hp y0 h0 y1 h1 e q l hl).2.1
  fin q := by
    obtain ⟨l, hl⟩ : ∃ l, l ∈ ((((t.xs j).next (p.1.map Prod.fst)).ans y0 y1 e).zs q).tree.paths :=
      List.exists_mem_of_ne_nil _ (TTree.paths_ne_nil _)
    exact (hacc j p hp y0 h0 y1 h1 e q l hl).2.2

theorem RTree.exists_y (hwf : t.WellFormed k) {j : Fin 2} {p : List (Zr × A × A) × Zr}
    (hp : p ∈ (t.xs j).tree.paths) : ∃ y0 ∈ ((t.xs j).next (p.1.map Prod.fst)).S0,
      ((t.xs j).next (p.1.map Prod.fst)).S0.head? = some y0 ∧
      ∃ y1 ∈ ((t.xs j).next (p.1.map Prod.fst)).S1 y0, (((t.xs j).next (p.1.map Prod.fst)).S1 y0).head? = some y1 := by
  obtain ⟨-, h1, -, h2⟩ := (hwf.2 j).2 p hp
  have : 0 < 2 ^ k := by positivity
  obtain ⟨a0, l0, e0⟩ := List.exists_cons_of_length_pos
    (l := ((t.xs j).next (p.1.map Prod.fst)).S0) (by omega)
  have m0 : a0 ∈ ((t.xs j).next (p.1.map Prod.fst)).S0 := by rw [e0]; simp
  obtain ⟨a1, l1, e1⟩ := List.exists_cons_of_length_pos
    (l := ((t.xs j).next (p.1.map Prod.fst)).S1 a0) (by have := (h2 a0 m0).2.1; omega)
  exact ⟨a0, m0, by rw [e0]; rfl, a1, by rw [e1]; simp, by rw [e1]; rfl⟩

theorem RTree.irAccepted (hwf : t.WellFormed k) (hacc : t.Accepted g (2 ^ k) V) (j : Fin 2) :
    ∀ p ∈ (t.xs j).tree.paths, irAccepts p.1 ((t.xs j).γ • g.F + V + (t.xs j).x • t.W)
      ((List.range (2 ^ k)).map g.Gs) p.2 := by
  intro p hp
  obtain ⟨y0, h0, -, y1, h1, -⟩ := RTree.exists_y hwf hp
  obtain ⟨l, hl⟩ : ∃ l, l ∈ ((((t.xs j).next (p.1.map Prod.fst)).ans y0 y1 0).zs 0).tree.paths :=
    List.exists_mem_of_ne_nil _ (TTree.paths_ne_nil _)
  exact (hacc j p hp y0 h0 y1 h1 0 0 l hl).1

theorem RTree.ref_eval (hwf : t.WellFormed k) (hacc : t.Accepted g (2 ^ k) V) :
    (rangeRef k t.scalars).eval g (2 ^ k) = t.Q := by
  obtain ⟨p, ps, hps⟩ := List.exists_cons_of_ne_nil (ITree.paths_ne_nil (t.xs 0).tree)
  have hp : p ∈ (t.xs 0).tree.paths := by rw [hps]; simp
  obtain ⟨a0, h0, e0, a1, h1, e1⟩ := RTree.exists_y hwf hp
  have hd : (t.xs 0).tree.scalars.paths.headD ([], 0) = (p.1.map fun s => (s.1, (), ()), p.2) := by
    rw [ITree.scalars_paths, hps]; rfl
  have := (RTree.yAccepted hwf hacc hp (y0 := a0) (y1 := a1) h0 h1 0).yOpen_eval
  have hr : rangeRef k t.scalars = yOpen (2 ^ k) (rangeWeight (2 ^ k) (p.1.map Prod.fst).reverse (t.xs 0).x) a0 a1
      (((t.xs 0).next (p.1.map Prod.fst)).ans a0 a1 0).scalars := by
    simp only [rangeRef, RTree.scalars, XBranch.scalars, hd, scalars_fst, RBranch.scalars, List.headD_eq_head?_getD, e0, e1, Option.getD_some]
  rw [hr]
  exact this

theorem range_special_sound (hwf : t.WellFormed k) (hacc : t.Accepted g (2 ^ k) V) :
    V = (rangeOpening t.scalars).1 • g.F + ∑ i ∈ range (2 ^ k), (rangeOpening t.scalars).2 i • g.Gs i ∧
    (∀ q ∈ rangeRels k t.scalars, q.eval g (2 ^ k) = 0) ∧
    ((∀ q ∈ rangeRels k t.scalars, q.IsZero (2 ^ k)) →
      ∀ i < 2 ^ k, ((rangeOpening t.scalars).2 i).val < 2 ^ 63) := by
  have hne : (t.xs 1).x - (t.xs 0).x ≠ 0 := sub_ne_zero.2 hwf.1.symm
  have hir := fun j => irExtract_sound k (t.xs j).tree _ _ (hwf.2 j).1 (by simp) (RTree.irAccepted hwf hacc j)
  have hop : ∀ j, (t.xs j).γ • g.F + V + (t.xs j).x • t.W
      = ∑ i ∈ range (2 ^ k), (irExtract (t.xs j).tree.scalars).getD i 0 • g.Gs i := fun j => by
    rw [(hir j).2.1, dot_range _ _ _ (hir j).1]
  refine ⟨?_, ?_, ?_⟩
  · have e0 := hop 0
    have e1 := hop 1
    have es : ∑ i ∈ range (2 ^ k), (rangeOpening t.scalars).2 i • g.Gs i
        = ((t.xs 1).x - (t.xs 0).x)⁻¹ • ((t.xs 1).x • ∑ i ∈ range (2 ^ k), (irExtract (t.xs 0).tree.scalars).getD i 0 • g.Gs i
          - (t.xs 0).x • ∑ i ∈ range (2 ^ k), (irExtract (t.xs 1).tree.scalars).getD i 0 • g.Gs i) := by
      rw [Finset.smul_sum, Finset.smul_sum, ← Finset.sum_sub_distrib, Finset.smul_sum]
      refine Finset.sum_congr rfl fun i _ => ?_
      simp only [rangeOpening, RTree.scalars, XBranch.scalars]
      module
    rw [es, ← e0, ← e1]
    simp only [rangeOpening, RTree.scalars, XBranch.scalars]
    have h1 : ((t.xs 1).x - (t.xs 0).x)⁻¹ * ((t.xs 1).x - (t.xs 0).x) = 1 := inv_mul_cancel₀ hne
    calc V = (((t.xs 1).x - (t.xs 0).x)⁻¹ * ((t.xs 1).x - (t.xs 0).x)) • V := by rw [h1, one_smul]
      _ = _ := by module
  · intro q hq
    rcases rangeRels_cases hq with ⟨j, l, hl, rfl⟩ | ⟨j, p, hp, y0, h0, y1, h1, e, hq⟩
    · have := (hir j).2.2.1 l hl
      rw [dot_range _ _ _ this.1] at this
      simp only [RangeRel.eval, zero_smul, Finset.sum_const_zero, this.2, add_zero]
    · exact (RTree.yAccepted hwf hacc hp h0 h1 e).rels_hold _ (RTree.ref_eval hwf hacc) q hq
  · intro hz
    obtain ⟨v, hv⟩ : ∃ v, v = (rangeOpening t.scalars).2 := ⟨_, rfl⟩
    rw [← hv]
    let w : ℕ → Zr := fun i => ((irExtract (t.xs 1).tree.scalars).getD i 0 - (irExtract (t.xs 0).tree.scalars).getD i 0)
      * ((t.xs 1).x - (t.xs 0).x)⁻¹
    have hu : ∀ j, ∀ p ∈ (t.xs j).tree.paths,
        p.2 = ∑ i ∈ range (2 ^ k), (v i + (t.xs j).x * w i) * bitMonomial (p.1.map Prod.fst).reverse i := by
      intro j p hp
      rw [(hir j).2.2.2 (fun l hl => ?_) p hp, dot_monomials_sum _ _ k (hir j).1
        (by rw [List.length_map, ITree.path_length k _ (hwf.2 j).1 p hp])]
      · refine Finset.sum_congr rfl fun i _ => ?_
        congr 1
        have h1 : ((t.xs 1).x - (t.xs 0).x) * ((t.xs 1).x - (t.xs 0).x)⁻¹ = 1 := mul_inv_cancel₀ hne
        simp only [hv, rangeOpening, RTree.scalars, XBranch.scalars, w]
        match j with
        | 0 => linear_combination -(irExtract (t.xs 0).tree.scalars).getD i 0 * h1
        | 1 => linear_combination -(irExtract (t.xs 1).tree.scalars).getD i 0 * h1
      · have := hz _ (mem_rangeRels_ir (k := k) hl)
        have hl' := (hir j).2.2.1 l hl
        exact getD_of_zero fun i hi => this.2.2.2.2.1 i (by rw [← hl'.1]; exact hi)
    let ref := rangeRef k t.scalars
    have heq : ∀ j, ∀ p ∈ (t.xs j).tree.paths, ∀ y0 ∈ ((t.xs j).next (p.1.map Prod.fst)).S0,
        ∀ y1 ∈ ((t.xs j).next (p.1.map Prod.fst)).S1 y0,
        rangeEquation (2 ^ k) ref.hs ref.fs v w (t.xs j).x (p.1.map Prod.fst).reverse y0 y1 := by
      intro j p hp y0 h0 y1 h1
      obtain ⟨-, -, hy0, hy⟩ := (hwf.2 j).2 p hp
      obtain ⟨hx0, hy⟩ := (hy y0 h0).2.2 y1 h1
      have hval := fun e => (RTree.yAccepted hwf hacc hp h0 h1 e).value (fun h => hy0 (h ▸ h0)) (hy e).1 ref
        (fun q hq => hz q (mem_rangeRels_y hp h0 h1 e hq))
      have v0 := hval 0
      have v1 := hval 1
      refine (rangeEquation_iff_value (2 ^ k) ref.hs ref.fs v w _ _ p.2 y0 y1 (hu j p hp)).1 ?_
      have e3 := mul_eq_zero.1 (show ((((t.xs j).next (p.1.map Prod.fst)).ans y0 y1 0).x0
        - (((t.xs j).next (p.1.map Prod.fst)).ans y0 y1 1).x0) * _ = 0 by rw [sub_mul]; exact sub_eq_zero.2 (v0.trans v1.symm))
      exact sub_eq_zero.1 (e3.resolve_left (sub_ne_zero.2 hx0))
    classical
    have hsel : ∀ x r, ∃ S : Finset Zr × (Zr → Finset Zr), (∃ j, ∃ p ∈ (t.xs j).tree.paths, x = (t.xs j).x ∧
        r = (p.1.map Prod.fst).reverse) → ∃ j, ∃ p ∈ (t.xs j).tree.paths, x = (t.xs j).x ∧
        r = (p.1.map Prod.fst).reverse ∧ S.1 = ((t.xs j).next (p.1.map Prod.fst)).S0.toFinset ∧
          S.2 = fun y0 => (((t.xs j).next (p.1.map Prod.fst)).S1 y0).toFinset := by
      intro x r
      by_cases h : ∃ j, ∃ p ∈ (t.xs j).tree.paths, x = (t.xs j).x ∧ r = (p.1.map Prod.fst).reverse
      · obtain ⟨j, p, hp, h1, h2⟩ := h
        exact ⟨(_, _), fun _ => ⟨j, p, hp, h1, h2, rfl, rfl⟩⟩
      · exact ⟨(∅, fun _ => ∅), fun h' => absurd h' h⟩
    choose S hS using hsel
    obtain ⟨hbits, hvals⟩ := range_equation_determined k ref.hs ref.fs v w (t.xs 0).x (t.xs 1).x
      (fun x r => ∃ j, ∃ p ∈ (t.xs j).tree.paths, x = (t.xs j).x ∧ r = (p.1.map Prod.fst).reverse)
      (fun x r => (S x r).1) (fun x r => (S x r).2) hwf.1
      (fun x hx c hc => by
        obtain ⟨j, rfl⟩ : ∃ j, x = (t.xs j).x := by
          rcases hx with rfl | rfl
          · exact ⟨0, rfl⟩
          · exact ⟨1, rfl⟩
        exact ITree.determines_sum k (t.xs j).tree (hwf.2 j).1 c fun p hp => hc _ ⟨j, p, hp, rfl, rfl⟩)
      (fun x _ r hr => by
        obtain ⟨j, p, hp, -, -, h1, -⟩ := hS x r hr
        obtain ⟨hnd, hl, -⟩ := (hwf.2 j).2 p hp
        rw [h1, List.toFinset_card_of_nodup hnd]
        exact hl)
      (fun x _ r hr y0 hy0 => by
        obtain ⟨j, p, hp, -, -, h0, h1⟩ := hS x r hr
        rw [h0, List.mem_toFinset] at hy0
        obtain ⟨hnd, hl, -⟩ := ((hwf.2 j).2 p hp).2.2.2 y0 hy0
        rw [h1, List.toFinset_card_of_nodup hnd]
        exact hl)
      (fun x _ r hr y0 h0 y1 h1 => by
        obtain ⟨j, p, hp, rfl, rfl, e0, e1⟩ := hS x r hr
        rw [e0, List.mem_toFinset] at h0
        rw [e1, List.mem_toFinset] at h1
        exact heq j p hp y0 h0 y1 h1)
    intro i hi
    obtain ⟨N, hN, hs⟩ := bits_sum_nat (fun j => ref.hs (i * 63 + j)) 63 (fun j hj => (hbits (i * 63 + j) (by
      have : i + 1 ≤ 2 ^ k := hi
      nlinarith)).1)
    rw [(hvals i hi).1, hs, ZMod.val_natCast_of_lt (lt_trans hN two_pow_63_lt_order)]
    exact hN

end

end PoL.BP
