import Verif.Model.Verkle
import Verif.Model.Sparse

/-! # The first write on a new tree -/

set_option linter.unusedSectionVars false

namespace PoL
open Verkle

variable {G1 G2 GT : Type} [AddCommGroup G1] [Module Zr G1] [AddCommGroup G2] [Module Zr G2]
  [AddCommGroup GT] [Module Zr GT] [DecidableEq G1]

theorem leafLoop_length (ds : List (Option Data)) (i : ℕ) (a b : Zr × ZrMap × List Zr) (h : leafLoop ds i a = some b) :
    b.2.2.length = a.2.2.length + ds.length := by
  induction ds generalizing i a with
  | nil =>
    obtain ⟨sum, values, m⟩ := a
    simp only [leafLoop, Option.some.injEq] at h
    subst h
    rfl
  | cons d t ih =>
    obtain ⟨sum, values, m⟩ := a
    cases d with
    | none =>
      have := ih _ _ h
      simp only [List.length_append, List.length_cons, List.length_nil] at this ⊢
      omega
    | some d =>
      simp only [leafLoop, Option.bind_eq_bind, Option.bind_eq_some_iff] at h
      obtain ⟨n, -, h⟩ := h
      have := ih _ _ h
      simp only [List.length_append, List.length_cons, List.length_nil] at this ⊢
      omega

/-- The first write of a leaf commits to two scalars more than there are descendants. -/
theorem updateLayerAboveLeaves_first (E : Curve G1 G2 GT) (pp : PP G1 G2 GT) (env : Env) (key : Str)
    (ds : List (Option Data)) (index : ℕ) (s : State) (h : ds.length + 2 ≠ pp.N) :
    updateLayerAboveLeaves E pp env key none ds index s = none := by
  unfold updateLayerAboveLeaves
  cases hl : leafLoop ds 0 (intToZr 0, .empty, []) with
  | none => rfl
  | some b =>
    have := leafLoop_length ds 0 _ _ hl
    obtain ⟨sum, values, m⟩ := b
    have hc : pp.commit (m ++ [sum] ++ [env.rand s.tick]) = none := by
      unfold PP.commit
      rw [if_pos]
      simp only [List.length_append, List.length_cons, List.length_nil] at this ⊢
      omega
    dsimp only [Option.bind_eq_bind, Option.bind_some]
    rw [hc]
    rfl

theorem putAt_first_none {σ D : Type} (fanOut : ℕ) (upd : Sparse.Update D σ) (data : Option D)
    (hu : ∀ key ds i s, ds.length = fanOut → upd key none ds true i s = none) (p : List ℕ) (hp : p ≠ []) (key key' : Str)
    (s : σ) : Sparse.putAt fanOut upd data p key (.mk key' none []) s = none := by
  induction p generalizing key key' s with
  | nil => exact absurd rfl hp
  | cons q rest ih =>
    cases rest with
    | nil =>
      simp only [Sparse.putAt, Option.bind_eq_bind, Option.bind_some]
      cases hr : Sparse.rawData (Sparse.descSet (Sparse.Vertex.mk key' none []).desc q
        (Sparse.Vertex.mk ((Sparse.descGet (Sparse.Vertex.mk key' none []).desc q).getD
          (Sparse.Vertex.mk (Sparse.childKey key q) none [])).key data
          ((Sparse.descGet (Sparse.Vertex.mk key' none []).desc q).getD
            (Sparse.Vertex.mk (Sparse.childKey key q) none [])).desc)) fanOut with
      | none => rfl
      | some raw =>
        rw [Option.bind_some]
        have hl : raw.length = fanOut := by
          unfold Sparse.rawData at hr
          split at hr
          · exact absurd hr (by simp)
          · rw [Option.some.injEq] at hr
            rw [← hr, List.length_map, List.length_range]
        have e : upd (Sparse.Vertex.mk key' (none : Option D) []).key (Sparse.Vertex.mk key' (none : Option D) []).data raw
          ([] : List ℕ).isEmpty q s = none := hu _ raw q s hl
        rw [e]
        rfl
    | cons r rest =>
      rw [Sparse.putAt]
      have : (Sparse.descGet (Sparse.Vertex.mk key' (none : Option D) []).desc q).getD
          (Sparse.Vertex.mk (Sparse.childKey key q) none []) = Sparse.Vertex.mk (Sparse.childKey key q) none [] := rfl
      dsimp only
      rw [this, ih (by simp)]
      rfl

end PoL
