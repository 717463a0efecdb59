import Verif.Proofs.Soundness
import Verif.Proofs.IterReduce
import Verif.Spec.IrTranscripts

/-!
# Extraction from a tree of iterated-reduction transcripts (helper lemmas)
-/

set_option linter.unusedSectionVars false

namespace PoL.BP

variable {G1 : Type} [AddCommGroup G1] [Module Zr G1]

/-- Coefficients over the folded generators, as coefficients over the original ones. -/
def irUnfold (x : Zr) (a : List Zr) : List Zr := Vec.mul a 1 ++ Vec.mul a x⁻¹

theorem irUnfold_length {x : Zr} {a : List Zr} {n : ℕ} (h : a.length = n) :
    (irUnfold x a).length = 2 * n := by simp [irUnfold, h]; omega

def irCombine (w : Zr → Zr → Zr → Zr) (x₁ x₂ x₃ : Zr) (a₁ a₂ a₃ : List Zr) : List Zr :=
  lin3 (w x₁ x₂ x₃) (w x₂ x₁ x₃) (w x₃ x₁ x₂) a₁ a₂ a₃

/-- The extracted opening of `V`. -/
def irExtract : ITree Unit → List Zr
  | .leaf u => [u]
  | .node _ _ x₁ x₂ x₃ _ t₁ t₂ t₃ _ =>
    irCombine wP x₁ x₂ x₃ (irUnfold x₁ (irExtract t₁)) (irUnfold x₂ (irExtract t₂))
      (irUnfold x₃ (irExtract t₃))

/-- The relation between the fourth transcript of a node and the interpolation of the first three. -/
def irNodeRelation (x₁ x₂ x₃ x₄ : Zr) (a₁ a₂ a₃ a₄ : List Zr) : List Zr :=
  lin3 1 (-1) 0 (lin3 x₄ 1 x₄⁻¹ (irCombine wL x₁ x₂ x₃ a₁ a₂ a₃) (irCombine wP x₁ x₂ x₃ a₁ a₂ a₃)
    (irCombine wR x₁ x₂ x₃ a₁ a₂ a₃)) a₄ a₄

/-- The relations among the generators computed from a tree. -/
def irRelations : ITree Unit → List (List Zr)
  | .leaf _ => []
  | .node _ _ x₁ x₂ x₃ x₄ t₁ t₂ t₃ t₄ =>
    irNodeRelation x₁ x₂ x₃ x₄ (irUnfold x₁ (irExtract t₁)) (irUnfold x₂ (irExtract t₂))
        (irUnfold x₃ (irExtract t₃)) (irUnfold x₄ (irExtract t₄))
      :: ((irRelations t₁).map (irUnfold x₁) ++ (irRelations t₂).map (irUnfold x₂)
        ++ (irRelations t₃).map (irUnfold x₃) ++ (irRelations t₄).map (irUnfold x₄))

theorem irZero_of_unfold {x : Zr} {a : List Zr} (h : ∀ y ∈ irUnfold x a, y = 0) : ∀ y ∈ a, y = 0 := by
  intro y hy
  have := h (y * 1) (by simp only [irUnfold, Vec.mul, List.mem_append, List.mem_map]; exact Or.inl ⟨y, hy, rfl⟩)
  simpa using this

theorem ir_halves_determined {n : ℕ} {l p r : List Zr} (hl : l.length = 2 * n) (hp : p.length = 2 * n)
    (hr : r.length = 2 * n) (x : Fin 4 → Zr) (a : Fin 4 → List Zr) (ha : ∀ i, (a i).length = n)
    (hx : ∀ i, x i ≠ 0) (hinj : ∀ i j, i ≠ j → x i ≠ x j)
    (h : ∀ i, lin3 (x i) 1 (x i)⁻¹ l p r = irUnfold (x i) (a i)) :
    ∀ i, a i = foldV 1 (x i) n p := by
  have e1 : ∀ i (j : ℕ) (hj : j < n), x i * l[j] + p[j] + (x i)⁻¹ * r[j]
      = (a i)[j]'(by rw [ha]; exact hj) := by
    intro i j hj
    have h1 := lin3_getElem (u := x i) (v := 1) (w := (x i)⁻¹) hl hp hr j (by omega)
    have h2 : (lin3 (x i) 1 (x i)⁻¹ l p r)[j]'(by rw [lin3_length hl hp hr]; omega)
        = (a i)[j]'(by rw [ha]; exact hj) := by
      have : j < (Vec.mul (a i) 1).length := by simp [ha, hj]
      simp only [h i, irUnfold, List.getElem_append_left this]
      simp [Vec.mul]
    rw [← h2, h1, one_mul]
  have e2 : ∀ i (j : ℕ) (hj : j < n), x i * l[n + j] + p[n + j] + (x i)⁻¹ * r[n + j]
      = (a i)[j]'(by rw [ha]; exact hj) * (x i)⁻¹ := by
    intro i j hj
    have h1 := lin3_getElem (u := x i) (v := 1) (w := (x i)⁻¹) hl hp hr (n + j) (by omega)
    have h2 : (lin3 (x i) 1 (x i)⁻¹ l p r)[n + j]'(by rw [lin3_length hl hp hr]; omega)
        = (a i)[j]'(by rw [ha]; exact hj) * (x i)⁻¹ := by
      simp only [h i, irUnfold]
      rw [List.getElem_append_right (by simp [ha])]
      simp [Vec.mul, ha]
    rw [← h2, h1, one_mul]
  have key : ∀ (j : ℕ) (hj : j < n), l[n + j] = 0 ∧ p[n + j] - l[j] = 0 ∧ r[n + j] - p[j] = 0
      ∧ -r[j] = 0 := by
    intro j hj
    have cub : ∀ i, l[n + j] * (x i) ^ 3 + (p[n + j] - l[j]) * (x i) ^ 2
        + (r[n + j] - p[j]) * (x i) + -r[j] = 0 := by
      intro i
      have hi := hx i
      have h1 := e1 i j hj
      have h2 := e2 i j hj
      field_simp at h1 h2
      linear_combination (x i) * h2 - h1
    exact cubic_zero (hinj 0 1 (by decide)) (hinj 0 2 (by decide)) (hinj 0 3 (by decide))
      (hinj 1 2 (by decide)) (hinj 1 3 (by decide)) (hinj 2 3 (by decide)) (cub 0) (cub 1) (cub 2) (cub 3)
  intro i
  apply List.ext_getElem (by rw [ha, foldV_length hp])
  intro j hj1 hj2
  have hj : j < n := by rw [ha] at hj1; exact hj1
  obtain ⟨k1, k2, k3, k4⟩ := key j hj
  rw [foldV_getElem hp j hj, ← e1 i j hj]
  linear_combination -(x i) * k2 - (x i)⁻¹ * k4

theorem irTree_node {A B : G1} {x₁ x₂ x₃ x₄ : Zr} {t₁ t₂ t₃ t₄ : ITree G1}
    {Q : List (Zr × G1 × G1) → Zr → Prop} :
    (∀ p ∈ (ITree.node A B x₁ x₂ x₃ x₄ t₁ t₂ t₃ t₄).paths, Q p.1 p.2) ↔
    (∀ p ∈ t₁.paths, Q ((x₁, A, B) :: p.1) p.2) ∧ (∀ p ∈ t₂.paths, Q ((x₂, A, B) :: p.1) p.2) ∧
    (∀ p ∈ t₃.paths, Q ((x₃, A, B) :: p.1) p.2) ∧ (∀ p ∈ t₄.paths, Q ((x₄, A, B) :: p.1) p.2) := by
  simp only [ITree.paths, List.mem_append, List.mem_map]
  constructor
  · intro H
    exact ⟨fun p hp => H _ (Or.inl (Or.inl (Or.inl ⟨p, hp, rfl⟩))),
      fun p hp => H _ (Or.inl (Or.inl (Or.inr ⟨p, hp, rfl⟩))),
      fun p hp => H _ (Or.inl (Or.inr ⟨p, hp, rfl⟩)), fun p hp => H _ (Or.inr ⟨p, hp, rfl⟩)⟩
  · rintro ⟨h1, h2, h3, h4⟩ p (((⟨q, hq, rfl⟩ | ⟨q, hq, rfl⟩) | ⟨q, hq, rfl⟩) | ⟨q, hq, rfl⟩)
    · exact h1 q hq
    · exact h2 q hq
    · exact h3 q hq
    · exact h4 q hq

theorem ITree.path_length {G : Type} : ∀ (k : ℕ) (t : ITree G), t.WellFormed k → ∀ p ∈ t.paths, p.1.length = k
  | 0, .leaf u, _, p, hp => by simp [ITree.paths] at hp; simp [hp]
  | 0, .node .., h, _, _ => by simp [ITree.WellFormed] at h
  | _ + 1, .leaf _, h, _, _ => by simp [ITree.WellFormed] at h
  | k + 1, .node A B x₁ x₂ x₃ x₄ t₁ t₂ t₃ t₄, h, p, hp => by
    obtain ⟨-, -, -, -, -, w1, w2, w3, w4⟩ := h
    simp only [ITree.paths, List.mem_append, List.mem_map] at hp
    rcases hp with ((⟨q, hq, rfl⟩ | ⟨q, hq, rfl⟩) | ⟨q, hq, rfl⟩) | ⟨q, hq, rfl⟩
    · simp [path_length k t₁ w1 q hq]
    · simp [path_length k t₂ w2 q hq]
    · simp [path_length k t₃ w3 q hq]
    · simp [path_length k t₄ w4 q hq]

theorem irExtract_sound (k : ℕ) : ∀ (t : ITree G1) (V : G1) (g : List G1), t.WellFormed k →
    g.length = 2 ^ k → (∀ p ∈ t.paths, irAccepts p.1 V g p.2) →
    (irExtract t.scalars).length = 2 ^ k ∧ V = dot (irExtract t.scalars) g ∧
      (∀ r ∈ irRelations t.scalars, r.length = 2 ^ k ∧ dot r g = 0) ∧
      ((∀ r ∈ irRelations t.scalars, ∀ y ∈ r, y = 0) →
        ∀ p ∈ t.paths, p.2 = dot (irExtract t.scalars) (monomials (p.1.map Prod.fst))) := by
  induction k with
  | zero =>
    intro t V g hwf hg hacc
    match t with
    | .node .. => simp [ITree.WellFormed] at hwf
    | .leaf u =>
      obtain ⟨g0, rfl, hV⟩ := hacc ([], u) (by simp [ITree.paths])
      refine ⟨rfl, ?_, by simp [irRelations, ITree.scalars], fun _ p hp => ?_⟩
      · simp [irExtract, ITree.scalars, hV]
      · simp only [ITree.paths, List.mem_singleton] at hp
        subst hp
        simp [irExtract, ITree.scalars, monomials]
  | succ k ih =>
    intro t V g hwf hg hacc
    match t with
    | .leaf u => simp [ITree.WellFormed] at hwf
    | .node A B x₁ x₂ x₃ x₄ t₁ t₂ t₃ t₄ =>
      rw [pow_succ, mul_comm] at hg
      obtain ⟨hnd, z1, z2, z3, z4, w1, w2, w3, w4⟩ := hwf
      simp only [List.nodup_cons, List.mem_cons, List.not_mem_nil, or_false, not_or,
        List.nodup_nil, and_true, not_false_eq_true] at hnd
      obtain ⟨⟨n12, n13, n14⟩, ⟨n23, n24⟩, n34⟩ := hnd
      rw [irTree_node (Q := fun a b => irAccepts a V g b)] at hacc
      obtain ⟨A1, A2, A3, A4⟩ := hacc
      simp only [irAccepts, halvesG_eq _ _ g (2 ^ k) hg] at A1 A2 A3 A4
      obtain ⟨l1, p1, r1, c1⟩ := ih t₁ _ _ w1 (foldG_length hg) A1
      obtain ⟨l2, p2, r2, c2⟩ := ih t₂ _ _ w2 (foldG_length hg) A2
      obtain ⟨l3, p3, r3, c3⟩ := ih t₃ _ _ w3 (foldG_length hg) A3
      obtain ⟨l4, p4, r4, c4⟩ := ih t₄ _ _ w4 (foldG_length hg) A4
      have pl1 := ITree.path_length k t₁ w1
      have pl2 := ITree.path_length k t₂ w2
      have pl3 := ITree.path_length k t₃ w3
      have pl4 := ITree.path_length k t₄ w4
      set n := 2 ^ k with hn
      have evu : ∀ (x : Zr) (a : List Zr), a.length = n →
          dot (irUnfold x a) g = dot a (foldG 1 x⁻¹ n g) := fun x a ha => dot_unfold 1 x⁻¹ n a g ha hg
      rw [← evu _ _ l1] at p1
      rw [← evu _ _ l2] at p2
      rw [← evu _ _ l3] at p3
      rw [← evu _ _ l4] at p4
      have q1 := irUnfold_length (x := x₁) l1
      have q2 := irUnfold_length (x := x₂) l2
      have q3 := irUnfold_length (x := x₃) l3
      have q4 := irUnfold_length (x := x₄) l4
      simp only [ITree.scalars, irExtract, irRelations]
      set E1 := irExtract t₁.scalars
      set E2 := irExtract t₂.scalars
      set E3 := irExtract t₃.scalars
      set E4 := irExtract t₄.scalars
      have hpow : 2 ^ (k + 1) = 2 * n := by rw [pow_succ, mul_comm]
      rw [hpow]
      have sw : ∀ x : Zr, V + x • A + x⁻¹ • B = x • A + V + x⁻¹ • B := fun x => by abel
      rw [sw] at p1 p2 p3 p4
      have lenC : ∀ w, (irCombine w x₁ x₂ x₃ (irUnfold x₁ E1) (irUnfold x₂ E2) (irUnfold x₃ E3)).length = 2 * n :=
        fun w => lin3_length q1 q2 q3
      have evA : dot (irCombine wL x₁ x₂ x₃ (irUnfold x₁ E1) (irUnfold x₂ E2) (irUnfold x₃ E3)) g = A := by
        rw [irCombine, dot_lin3 (by omega) (by omega), ← p1, ← p2, ← p3]
        exact interp_L n12 n13 n23 z1 z2 z3 A V B
      have evV : dot (irCombine wP x₁ x₂ x₃ (irUnfold x₁ E1) (irUnfold x₂ E2) (irUnfold x₃ E3)) g = V := by
        rw [irCombine, dot_lin3 (by omega) (by omega), ← p1, ← p2, ← p3]
        exact interp_P n12 n13 n23 z1 z2 z3 A V B
      have evB : dot (irCombine wR x₁ x₂ x₃ (irUnfold x₁ E1) (irUnfold x₂ E2) (irUnfold x₃ E3)) g = B := by
        rw [irCombine, dot_lin3 (by omega) (by omega), ← p1, ← p2, ← p3]
        exact interp_R n12 n13 n23 z1 z2 z3 A V B
      refine ⟨lenC _, evV.symm, ?_, ?_⟩
      · intro r hr
        simp only [List.mem_cons, List.mem_append, List.mem_map] at hr
        rcases hr with rfl | (((⟨r, hr, rfl⟩ | ⟨r, hr, rfl⟩) | ⟨r, hr, rfl⟩) | ⟨r, hr, rfl⟩)
        · refine ⟨lin3_length (lin3_length (lenC _) (lenC _) (lenC _)) q4 q4, ?_⟩
          simp only [irNodeRelation]
          rw [dot_lin3 (by rw [lin3_length (lenC _) (lenC _) (lenC _), q4])
            (by rw [lin3_length (lenC _) (lenC _) (lenC _), q4]),
            dot_lin3 (by rw [lenC, lenC]) (by rw [lenC, lenC]), evA, evV, evB, ← p4]
          module
        · exact ⟨irUnfold_length (r1 r hr).1, by rw [evu _ _ (r1 r hr).1]; exact (r1 r hr).2⟩
        · exact ⟨irUnfold_length (r2 r hr).1, by rw [evu _ _ (r2 r hr).1]; exact (r2 r hr).2⟩
        · exact ⟨irUnfold_length (r3 r hr).1, by rw [evu _ _ (r3 r hr).1]; exact (r3 r hr).2⟩
        · exact ⟨irUnfold_length (r4 r hr).1, by rw [evu _ _ (r4 r hr).1]; exact (r4 r hr).2⟩
      · intro hz
        simp only [List.mem_cons, List.mem_append, List.mem_map] at hz
        have C1 := c1 fun r hr => irZero_of_unfold (hz _ (Or.inr (Or.inl (Or.inl (Or.inl ⟨r, hr, rfl⟩)))))
        have C2 := c2 fun r hr => irZero_of_unfold (hz _ (Or.inr (Or.inl (Or.inl (Or.inr ⟨r, hr, rfl⟩)))))
        have C3 := c3 fun r hr => irZero_of_unfold (hz _ (Or.inr (Or.inl (Or.inr ⟨r, hr, rfl⟩))))
        have C4 := c4 fun r hr => irZero_of_unfold (hz _ (Or.inr (Or.inr ⟨r, hr, rfl⟩)))
        have rz := hz _ (Or.inl rfl)
        have i4 : lin3 x₄ 1 x₄⁻¹ (irCombine wL x₁ x₂ x₃ (irUnfold x₁ E1) (irUnfold x₂ E2) (irUnfold x₃ E3))
            (irCombine wP x₁ x₂ x₃ (irUnfold x₁ E1) (irUnfold x₂ E2) (irUnfold x₃ E3))
            (irCombine wR x₁ x₂ x₃ (irUnfold x₁ E1) (irUnfold x₂ E2) (irUnfold x₃ E3)) = irUnfold x₄ E4 :=
          list_eq_of_lin3_zero (lin3_length (lenC _) (lenC _) (lenC _)) q4 rz
        let x : Fin 4 → Zr := ![x₁, x₂, x₃, x₄]
        let Es : Fin 4 → List Zr := ![E1, E2, E3, E4]
        have hx : ∀ i, x i ≠ 0 := by intro i; fin_cases i <;> assumption
        have hinj : ∀ i j, i ≠ j → x i ≠ x j := by
          intro i j hij
          fin_cases i <;> fin_cases j <;>
            first
            | exact absurd rfl hij
            | assumption
            | (apply Ne.symm; assumption)
        have hlen : ∀ i, (Es i).length = n := by intro i; fin_cases i <;> assumption
        have da := ir_halves_determined (lenC wL) (lenC wP) (lenC wR) x Es hlen hx hinj (by
          intro i
          fin_cases i
          · exact lin3_interp q1 q2 q3 n12 n13 n23 z1 z2 z3 _ _ q1 (Or.inl ⟨rfl, rfl⟩)
          · exact lin3_interp q1 q2 q3 n12 n13 n23 z1 z2 z3 _ _ q2 (Or.inr (Or.inl ⟨rfl, rfl⟩))
          · exact lin3_interp q1 q2 q3 n12 n13 n23 z1 z2 z3 _ _ q3 (Or.inr (Or.inr ⟨rfl, rfl⟩))
          · exact i4)
        have fin : ∀ (i : Fin 4) (u : Zr) (ys : List Zr), ys.length = k → u = dot (Es i) (monomials ys) →
            u = dot (irCombine wP x₁ x₂ x₃ (irUnfold x₁ E1) (irUnfold x₂ E2) (irUnfold x₃ E3))
              (monomials (x i :: ys)) := by
          intro i u ys hys hu
          rw [monomials, dot_monomials (n := n) (x i) (lenC wP) (by rw [monomials_length, hys]), ← da i]
          exact hu
        rw [irTree_node (Q := fun a b => b = dot (irCombine wP x₁ x₂ x₃ (irUnfold x₁ E1)
          (irUnfold x₂ E2) (irUnfold x₃ E3)) (monomials (a.map Prod.fst)))]
        simp only [List.map_cons]
        exact ⟨fun p hp => fin 0 _ _ (by simp [pl1 p hp]) (C1 p hp), fun p hp => fin 1 _ _ (by simp [pl2 p hp]) (C2 p hp),
          fun p hp => fin 2 _ _ (by simp [pl3 p hp]) (C3 p hp), fun p hp => fin 3 _ _ (by simp [pl4 p hp]) (C4 p hp)⟩

end PoL.BP
