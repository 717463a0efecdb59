import Verif.Proofs.SameRoot
import Verif.Spec.Rewrite

/-!
# Two runs with the same contents, one the continuation of the other
-/

set_option linter.unusedSectionVars false

namespace PoL.Verkle
open Spec Props Polynomial

variable {G1 G2 GT : Type} [AddCommGroup G1] [Module Zr G1] [AddCommGroup G2] [Module Zr G2]
  [AddCommGroup GT] [Module Zr GT] [DecidableEq G1] [DecidableEq GT]

section
variable {h₁ h₂ : List (List ℕ × ℤ)}

theorem _root_.PoL.Spec.SameAmounts.paths (hs : SameAmounts h₁ h₂) : (h₁.map Prod.fst).toFinset = (h₂.map Prod.fst).toFinset := by
  ext p
  rw [List.mem_toFinset, List.mem_toFinset, ← lastPut_isSome, ← lastPut_isSome, hs p]

theorem _root_.PoL.Spec.SameAmounts.amountBelow (hs : SameAmounts h₁ h₂) (q : List ℕ) : amountBelow h₁ q = amountBelow h₂ q := by
  unfold Spec.amountBelow
  rw [hs.paths]
  exact Finset.sum_congr rfl fun p _ => by unfold latest; rw [hs p]

theorem _root_.PoL.Spec.SameAmounts.touched (hs : SameAmounts h₁ h₂) (q : List ℕ) : touched h₁ q ↔ touched h₂ q := by
  have key : ∀ h : List (List ℕ × ℤ), Spec.touched h q ↔ ∃ p ∈ (h.map Prod.fst).toFinset, q <+: p := by
    intro h
    simp only [List.mem_toFinset, List.mem_map]
    exact ⟨fun ⟨e, he, hp⟩ => ⟨_, ⟨e, he, rfl⟩, hp⟩, fun ⟨_, ⟨e, he, rfl⟩, hp⟩ => ⟨e, he, hp⟩⟩
  rw [key, key, hs.paths]

theorem _root_.PoL.Spec.SameAmounts.belowVals (hs : SameAmounts h₁ h₂) (q : List ℕ) : belowVals h₁ q = belowVals h₂ q := by
  funext j
  unfold Verkle.belowVals
  rw [hs.amountBelow]
  by_cases hj : Spec.touched h₁ (q ++ [j])
  · rw [if_pos hj, if_pos ((hs.touched _).1 hj)]
  · rw [if_neg hj, if_neg fun hc => hj ((hs.touched _).2 hc)]

theorem _root_.PoL.Spec.SameAmounts.histVals (hs : SameAmounts h₁ h₂) (q : List ℕ) : histVals h₁ q = histVals h₂ q := by
  funext j
  unfold Verkle.histVals
  rw [hs]

end

section
variable {E : Curve G1 G2 GT} {env : Env} {α : Zr} {F L : ℕ} {t t₁ t₂ : Tree G1 G2 GT} {hist tail : List (Str × ℤ)}
  {s s₁ s₂ : State}

/-- What is stored at one path by the two runs. -/
theorem contents_vertices (hE : E.Lawful) (henv : env.Lawful) (ht : NewTree E α F t)
    (hids : ValidIds t.id2Path F L (hist ++ tail)) (h₁ : t.puts E env hist s = some (t₁, s₁))
    (h₂ : t₁.puts E env tail s₁ = some (t₂, s₂))
    (hs : SameAmounts (byPath t.id2Path hist) (byPath t.id2Path (hist ++ tail))) (q : List ℕ) (hqL : q.length < L)
    (hq : touched (byPath t.id2Path hist) q) :
    ∃ bf, (q.length + 1 = L →
        load E s₁.db (keyOf q) = some (leafVertex F bf (histVals (byPath t.id2Path hist) q)
          (com E α (valVec F (histVals (byPath t.id2Path hist) q) bf)
            + (deviation F (byPath t.id2Path hist) q).eval α • E.genG1)) ∧
        load E s₂.db (keyOf q) = some (leafVertex F bf (histVals (byPath t.id2Path hist) q)
          (com E α (valVec F (histVals (byPath t.id2Path hist) q) bf)
            + (deviation F (byPath t.id2Path (hist ++ tail)) q).eval α • E.genG1))) ∧
      (q.length + 1 < L →
        load E s₁.db (keyOf q) = some (innerVertex E α F bf (belowVals (byPath t.id2Path hist) q)
          (belowDigs E s₁.db (byPath t.id2Path hist) q)) ∧
        load E s₂.db (keyOf q) = some (innerVertex E α F bf (belowVals (byPath t.id2Path hist) q)
          (belowDigs E s₂.db (byPath t.id2Path (hist ++ tail)) q))) := by
  have hids₁ : ValidIds t.id2Path F L hist := fun e he => hids e (List.mem_append_left _ he)
  have h12 : t.puts E env (hist ++ tail) s = some (t₂, s₂) := by
    unfold Tree.puts at h₁ h₂ ⊢
    rw [List.foldlM_append, h₁]
    exact h₂
  have r₁ : Run E env α F L t hist s₁.db := ⟨hids₁, ht, _, _, _, h₁, rfl⟩
  have r₂ : Run E env α F L t (hist ++ tail) s₂.db := ⟨hids, ht, _, _, _, h12, rfl⟩
  obtain ⟨x₁, x₂, hx₁, hx₂, hbf⟩ := C41_blinding_factor_kept hE henv ht (by omega) hist tail hids h₁ h₂ q hqL hq
  have hq₂ := (hs.touched q).1 hq
  rcases (show q.length + 1 ≤ L from hqL).lt_or_eq with h | h
  · obtain ⟨b₁, e₁⟩ := r₁.inner hE henv q h hq
    obtain ⟨b₂, e₂⟩ := r₂.inner hE henv q h hq₂
    have i₁ := Option.some.inj (hx₁.symm.trans (load_fromBytes e₁))
    have i₂ := Option.some.inj (hx₂.symm.trans (load_fromBytes e₂))
    rw [i₁, i₂] at hbf
    change b₁ = b₂ at hbf
    subst hbf
    rw [← hs.belowVals] at e₂
    exact ⟨b₁, fun hc => by omega, fun _ => ⟨e₁, e₂⟩⟩
  · obtain ⟨b₁, e₁⟩ := r₁.leaf hE henv q h hq
    obtain ⟨b₂, e₂⟩ := r₂.leaf hE henv q h hq₂
    have i₁ := Option.some.inj (hx₁.symm.trans (load_fromBytes e₁))
    have i₂ := Option.some.inj (hx₂.symm.trans (load_fromBytes e₂))
    rw [i₁, i₂] at hbf
    change b₁ = b₂ at hbf
    subst hbf
    rw [← hs.histVals] at e₂
    exact ⟨b₁, fun _ => ⟨e₁, e₂⟩, fun hc => by omega⟩

/-- If the vertices over the leaves agree, all do. -/
theorem contents_up (hE : E.Lawful) (henv : env.Lawful) (ht : NewTree E α F t)
    (hids : ValidIds t.id2Path F L (hist ++ tail)) (h₁ : t.puts E env hist s = some (t₁, s₁))
    (h₂ : t₁.puts E env tail s₁ = some (t₂, s₂))
    (hs : SameAmounts (byPath t.id2Path hist) (byPath t.id2Path (hist ++ tail)))
    (hdev : ∀ q, q.length + 1 = L → touched (byPath t.id2Path hist) q →
      (deviation F (byPath t.id2Path (hist ++ tail)) q).eval α = (deviation F (byPath t.id2Path hist) q).eval α) (n : ℕ) :
    ∀ q, q.length + 1 + n = L → touched (byPath t.id2Path hist) q →
      ∃ x, load E s₁.db (keyOf q) = some x ∧ load E s₂.db (keyOf q) = some x := by
  induction n with
  | zero =>
    intro q hq htou
    obtain ⟨bf, hl, -⟩ := contents_vertices hE henv ht hids h₁ h₂ hs q (by omega) htou
    obtain ⟨e₁, e₂⟩ := hl hq
    rw [hdev q hq htou] at e₂
    exact ⟨_, e₁, e₂⟩
  | succ n ih =>
    intro q hq htou
    obtain ⟨bf, -, hl⟩ := contents_vertices hE henv ht hids h₁ h₂ hs q (by omega) htou
    obtain ⟨e₁, e₂⟩ := hl (by omega)
    refine ⟨_, e₁, ?_⟩
    rw [e₂]
    congr 2
    funext j
    unfold belowDigs
    by_cases hj : touched (byPath t.id2Path hist) (q ++ [j])
    · obtain ⟨x, hx₁, hx₂⟩ := ih (q ++ [j]) (by rw [List.length_append, List.length_singleton]; omega) hj
      rw [if_pos hj, if_pos ((hs.touched _).1 hj), hx₁, hx₂]
    · rw [if_neg hj, if_neg fun hc => hj ((hs.touched _).2 hc)]

end

/-- Vertices over the leaves that differ in `V` only. -/
theorem leafVertex_fields (F : ℕ) (bf : Zr) (vals : ℕ → Option Zr) (V V' : G1) :
    (leafVertex F bf vals V').values = (leafVertex F bf vals V).values ∧
      (leafVertex F bf vals V').sum = (leafVertex F bf vals V).sum ∧
      (leafVertex F bf vals V').blindingFactor = (leafVertex F bf vals V).blindingFactor ∧
      (leafVertex F bf vals V').V = V' ∧ (leafVertex F bf vals V).V = V := ⟨rfl, rfl, rfl, rfl, rfl⟩

/-- Vertices above that differ in the digests only. -/
theorem innerVertex_fields (E : Curve G1 G2 GT) (α : Zr) (F : ℕ) (bf : Zr) (vals digs digs' : ℕ → Option Zr) :
    (innerVertex E α F bf vals digs').values = (innerVertex E α F bf vals digs).values ∧
      (innerVertex E α F bf vals digs').sum = (innerVertex E α F bf vals digs).sum ∧
      (innerVertex E α F bf vals digs').blindingFactor = (innerVertex E α F bf vals digs).blindingFactor ∧
      (innerVertex E α F bf vals digs').V = (innerVertex E α F bf vals digs).V := ⟨rfl, rfl, rfl, rfl⟩

theorem add_sub_smul (c g : G1) (a b : Zr) : c + a • g = c + b • g + (a - b) • g := by
  rw [sub_smul]; abel

/-! ### One more write -/

theorem deviation_snoc_off (F : ℕ) (h : List (List ℕ × ℤ)) (e : List ℕ × ℤ) (q : List ℕ) (he : ¬ q <+: e.1) :
    deviation F (h ++ [e]) q = deviation F h q := by
  unfold deviation
  rw [List.length_append, List.length_singleton, Finset.sum_range_succ]
  rw [if_neg, add_zero]
  · refine Finset.sum_congr rfl fun n hn => ?_
    rw [Finset.mem_range] at hn
    rw [List.take_append_of_le_length hn.le, List.take_append_of_le_length (by omega), List.getElem?_append_left hn]
  · rintro ⟨-, e', he', hp⟩
    rw [List.getElem?_append_right le_rfl] at he'
    simp at he'
    exact he (he' ▸ hp)

theorem deviation_rewrite (F : ℕ) {h : List (List ℕ × ℤ)} {e : List ℕ × ℤ} (he : e.1 ∈ h.map Prod.fst)
    (hl : latest h e.1 = e.2) {q : List ℕ} (hq : q <+: e.1) :
    deviation F (h ++ [e]) q = deviation F h q + C ((misplaced h q : ℤ) : Zr) * X ^ (pathsBelow h q + 1) := by
  obtain ⟨e', he', hee⟩ := List.mem_map.1 he
  rw [deviation_snoc F h e q ⟨e', he', hee ▸ hq⟩ hq]
  unfold strayed misplaced
  rw [amountBelow_again he hl, pathsBelow_again he, sub_self]
  simp

theorem sameContents_again {h : List (List ℕ × ℤ)} {e : List ℕ × ℤ} (hl : lastPut h e.1 = some e.2) :
    SameAmounts h (h ++ [e]) := by
  intro p
  rw [Sparse.lastPut_concat]
  split_ifs with hp
  · rw [← hp, hl]
  · rfl

end PoL.Verkle
