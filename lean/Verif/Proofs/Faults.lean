import Verif.Model.Faults
import Verif.Proofs.RecoverTree
import Verif.Proofs.RecoverKept
import Verif.Proofs.Lost

/-! Database calls failing inside a `Set`: the callback. -/

set_option linter.unusedSectionVars false

namespace PoL.Verkle
open PoL.PP Sparse Spec

variable {G1 G2 GT : Type} [AddCommGroup G1] [Module Zr G1] [AddCommGroup G2] [Module Zr G2]
  [AddCommGroup GT] [Module Zr GT] [DecidableEq G1] [DecidableEq GT]

section
variable {E : Curve G1 G2 GT} {PP : PP G1 G2 GT} {env : Env} {f : Faults} {key : Str} {raw : List (Option Data)}
  {b : Bool} {i : ℕ} {s : State}

theorem hide_missing (f : Faults) (key : Str) (db : Db) : MissingSome db (f.hide key db) := by
  intro k
  unfold Faults.hide
  split
  · exact .inl rfl
  · exact .inr rfl

theorem hide_load {x : Vertex G1} {k : Str} (h : load E (f.hide key s.db) k = some x) :
    f.hide key s.db k = s.db k ∧ load E s.db k = some x := by
  rcases hide_missing f key s.db k with hk | hk
  · rw [load_eq, hk] at h
    simp at h
  · rw [load_congr E hk] at h
    exact ⟨hk, h⟩

theorem overlay_self (db given : Db) : overlay db given given = db := by
  funext k
  unfold overlay
  rw [if_pos rfl]

theorem faulty_footprint (node : Option Data) (k : Str) (hk : k ≠ key) :
    (updateFaulty E PP env f key node raw b i s).2.db k = s.db k := by
  unfold updateFaulty
  dsimp only
  split_ifs
  · rfl
  · show overlay _ _ _ k = _
    unfold overlay
    rw [if_pos (updateR_footprint E PP env key node raw b i _ k hk)]

/-- A callback that returns does what it does over a database that answers. -/
theorem faulty_returns (hE : E.Lawful) (henv : env.Lawful) {node : Option Data} {d : Option Data}
    (h : (updateFaulty E PP env f key node raw b i s).1 = some d) :
    updateInnerVertex E PP env key node raw b i s = some (d, (updateFaulty E PP env f key node raw b i s).2) ∧
      d = some (.key key) := by
  unfold updateFaulty at h ⊢
  dsimp only at h ⊢
  split_ifs at h with hw
  rw [if_neg hw]
  obtain ⟨hr, -⟩ : (updateInnerVertexR E PP env key node raw b i ⟨f.hide key s.db, s.tick⟩).1 = some d ∧ True := ⟨h, trivial⟩
  have hfoot := updateR_footprint E PP env key node raw b i ⟨f.hide key s.db, s.tick⟩
  obtain ⟨hd, y, hy⟩ := (Pol.updateR_keeps hE henv PP key node raw b i ⟨f.hide key s.db, s.tick⟩).2 d hr
  have hfoot2 := updateR_footprint E PP env key node raw b i s
  have hiff := updateR_iff E PP env key node raw b i s
  have hup := (updateR_iff E PP env key node raw b i ⟨f.hide key s.db, s.tick⟩ d
    (updateInnerVertexR E PP env key node raw b i ⟨f.hide key s.db, s.tick⟩).2).1 (Prod.ext hr rfl)
  generalize updateInnerVertexR E PP env key node raw b i ⟨f.hide key s.db, s.tick⟩ = r at *
  rcases Pol.update_below E env PP key node raw b i (s := s) (s' := ⟨f.hide key s.db, s.tick⟩)
    ⟨rfl, hide_missing f key s.db⟩ with hc | ⟨x, x', h1, h2, h3, h4, h5⟩
  · rw [hc] at hup; cases hup
  · rw [hup, Option.some.injEq] at h2
    subst h2
    dsimp only at h3 h4 h5
    refine ⟨?_, hd⟩
    rw [h1]
    obtain ⟨xd, xs⟩ := x
    dsimp only at h3 h4 h5
    subst h3
    have hs := (hiff xd xs).2 h1
    rw [hs] at hfoot2
    obtain ⟨xdb, xt⟩ := xs
    dsimp only at h4 h5 hfoot2
    congr 2
    refine congr (congrArg State.mk ?_) h4
    funext k
    unfold overlay
    by_cases hk : k = key
    · subst hk
      have hne : r.2.db k ≠ [] := by
        intro hc
        rw [hc, Pol.fromBytes_nil] at hy
        cases hy
      rcases h5 k with h5 | h5
      · exact absurd h5 hne
      · split_ifs with hg
        · rcases hide_missing f k s.db k with hk | hk
          · rw [hk] at hg; exact absurd hg hne
          · rw [← h5, hg, hk]
        · exact h5.symm
    · rw [if_pos (hfoot k hk)]
      exact hfoot2 k hk

/-- A callback for a vertex without data that panics writes nothing. -/
theorem faulty_new (h : (updateFaulty E PP env f key none raw b i s).1 = none) :
    (updateFaulty E PP env f key none raw b i s).2.db = s.db := by
  unfold updateFaulty at h ⊢
  dsimp only at h ⊢
  split_ifs at h ⊢ with hw
  · rfl
  · have : (updateInnerVertexR E PP env key none raw b i ⟨f.hide key s.db, s.tick⟩).2.db = f.hide key s.db := by
      dsimp only at h
      revert h
      unfold updateInnerVertexR updateLayerAboveLeavesR updateInnerLayerR returned panicked
      dsimp only
      repeat' split
      all_goals first | exact fun _ => rfl | (intro h; cases h)
    dsimp only
    rw [this, overlay_self]

/-- A callback for a stored vertex that panics leaves the vertex as it was. -/
theorem faulty_old (hE : E.Lawful) (henv : env.Lawful) {n : Data} {x : Vertex G1} (hx : load E s.db key = some x)
    (hret : ∀ s0 : State, load E s0.db key = some x → (b = false → (childOf E s0.db raw i).isSome) →
      (updateInnerVertex E PP env key (some n) raw b i s0).isSome)
    (h : (updateFaulty E PP env f key (some n) raw b i s).1 = none) :
    load E (updateFaulty E PP env f key (some n) raw b i s).2.db key = some x := by
  unfold updateFaulty at h ⊢
  dsimp only at h ⊢
  split_ifs at h ⊢ with hw
  · exact hx
  · set s0 : State := ⟨f.hide key s.db, s.tick⟩ with hs0
    dsimp only at h
    cases hl : load E s0.db key with
    | none =>
      rw [updateR_missing E PP env key n raw b i s0 hl]
      show load E (overlay _ _ (f.hide key s.db)) _ = _
      rw [overlay_self, hx]
    | some v =>
      obtain ⟨hk, hv⟩ := hide_load hl
      rw [hx, Option.some.injEq] at hv
      subst hv
      by_cases hc : b = false → (childOf E s0.db raw i).isSome
      · exfalso
        obtain ⟨r, hr⟩ := Option.isSome_iff_exists.1 (hret s0 hl hc)
        have := (updateR_iff E PP env key (some n) raw b i s0 r.1 r.2).2 hr
        rw [this] at h
        cases h
      · push Not at hc
        obtain ⟨rfl, hc⟩ := hc
        have hc' : childOf E s0.db raw i = none := by
          rw [← Option.not_isSome_iff_eq_none]; exact hc
        have hR : updateInnerVertexR E PP env key (some n) raw false i s0 = panickedWith E env key x s0 := by
          rw [← fetch_key] at hl
          unfold updateInnerVertexR updateInnerLayerR
          rw [if_neg (by simp)]
          dsimp only
          rw [hl]
          dsimp only
          rw [hc']
        rw [hR]
        show load E (overlay _ _ (store E env key x s0).db) _ = _
        have hst := load_store_self hE henv key x s0
        by_cases hg : (store E env key x s0).db key = f.hide key s.db key
        · rw [load_congr E (show overlay s.db (f.hide key s.db) (store E env key x s0).db key = s.db key from if_pos hg), hx]
        · rw [load_congr E (show overlay s.db (f.hide key s.db) (store E env key x s0).db key = (store E env key x s0).db key
            from if_neg hg), hst]

/-- Without failing calls the callback is the one of the other files. -/
theorem faulty_none (node : Option Data) :
    updateFaulty E PP env Faults.none key node raw b i s = updateInnerVertexR E PP env key node raw b i s := by
  have hh : Faults.none.hide key s.db = s.db := rfl
  unfold updateFaulty
  dsimp only
  rw [hh, if_neg (by simp [Faults.none])]
  refine Prod.ext rfl ?_
  dsimp only
  have : overlay s.db s.db (updateInnerVertexR E PP env key node raw b i ⟨s.db, s.tick⟩).2.db
      = (updateInnerVertexR E PP env key node raw b i ⟨s.db, s.tick⟩).2.db := by
    funext k
    unfold overlay
    split_ifs with hk
    · exact hk.symm
    · rfl
  rw [this]

end

end PoL.Verkle
