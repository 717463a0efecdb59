import Verif.Proofs.FaultsSet

/-! Database calls failing inside a `Set`: which failures make it panic. -/

set_option linter.unusedSectionVars false

namespace PoL.Verkle
open PoL.PP Sparse Spec

variable {G1 G2 GT : Type} [AddCommGroup G1] [Module Zr G1] [AddCommGroup G2] [Module Zr G2]
  [AddCommGroup GT] [Module Zr GT] [DecidableEq G1] [DecidableEq GT]

theorem innerLoop_fetches (E : Curve G1 G2 GT) (db : Db) (l : List (Option Data)) (i : ℕ) (a b : InnerAcc)
    (h : innerLoop E db l i a = some b) : ∀ d, some d ∈ l → (fetchVertex E db (some d)).isSome := by
  induction l generalizing i a with
  | nil => simp
  | cons x l ih =>
    intro d hd
    cases x with
    | none =>
      rw [innerLoop] at h
      exact ih _ _ h d (by simpa using hd)
    | some y =>
      rw [innerLoop] at h
      obtain ⟨v, hv, h⟩ := Option.bind_eq_some_iff.1 h
      obtain ⟨dg, -, h⟩ := Option.bind_eq_some_iff.1 h
      rcases List.mem_cons.1 hd with hd | hd
      · rw [hd, hv]; rfl
      · exact ih _ _ h d hd

section
variable {E : Curve G1 G2 GT} {PP : PP G1 G2 GT} {env : Env} {f : Faults}

theorem hide_read {key k : Str} (db : Db) (h : f.reads key k = true) : load E (f.hide key db) k = none := by
  rw [load_eq]
  unfold Faults.hide
  rw [h]
  rfl

/-- None of the calls made by a callback that returns has failed. -/
theorem faulty_calls {key : Str} {node : Option Data} {raw : List (Option Data)} {b : Bool} {i : ℕ} {s : State} {d : Option Data}
    (h : (updateFaulty E PP env f key node raw b i s).1 = some d) :
    f.write key = false ∧ (node.isSome → f.reads key key = false) ∧
      ∀ k, b = false → raw[i]? = some (some (.key k)) → f.reads key k = false := by
  unfold updateFaulty at h
  dsimp only at h
  split_ifs at h with hw
  dsimp only at h
  refine ⟨by simpa using hw, fun hn => ?_, fun k hb hk => ?_⟩
  · by_contra hc
    obtain ⟨n, rfl⟩ := Option.isSome_iff_exists.1 hn
    rw [updateR_missing E PP env key n raw b i _ (hide_read s.db (by simpa using hc))] at h
    cases h
  · by_contra hc
    have hl : load E (f.hide key s.db) k = none := hide_read s.db (by simpa using hc)
    subst hb
    unfold updateInnerVertexR updateInnerLayerR at h
    rw [if_neg (by simp)] at h
    cases node with
    | none =>
      dsimp only at h
      cases hin : innerLoop E (f.hide key s.db) raw 0 ⟨intToZr 0, .empty, .empty, [], []⟩ with
      | none => rw [hin] at h; cases h
      | some a =>
        have := innerLoop_fetches E _ raw 0 _ a hin (.key k) (List.mem_of_getElem? hk)
        rw [fetch_key, hl] at this
        cases this
    | some n =>
      dsimp only at h
      cases hv : fetchVertex E (f.hide key s.db) (some (.key key)) with
      | none => rw [hv] at h; cases h
      | some v =>
        have hch : childOf E (f.hide key s.db) raw i = none := by
          unfold childOf
          rw [hk]
          show (fetchVertex E (f.hide key s.db) (some (.key k))).bind _ = none
          rw [fetch_key, hl]
          rfl
        rw [hv] at h
        dsimp only at h
        rw [hch] at h
        cases h

theorem putAtR_calls (hE : E.Lawful) (henv : env.Lawful) {F : ℕ} {data : Option Data} (rest pre : List ℕ)
    {v : Sparse.Vertex Data} {s : State} (hk : KeysOk pre v)
    (h : (putAtR F (updateFaulty E PP env f) data rest (keyOf pre) v s).ok = true) :
    (rest ≠ [] → (putAtR F (updateFaulty E PP env f) data rest (keyOf pre) v s).vertex.data = some (.key (keyOf pre))) ∧
    ∀ q j, q ++ [j] <+: rest → f.write (keyOf (pre ++ q)) = false ∧
      (∀ u, Sparse.find q v = some u → u.data.isSome → f.reads (keyOf (pre ++ q)) (keyOf (pre ++ q)) = false) ∧
      (q ++ [j] ≠ rest → f.reads (keyOf (pre ++ q)) (keyOf (pre ++ q ++ [j])) = false) := by
  induction rest generalizing pre v with
  | nil =>
    refine ⟨fun h => absurd rfl h, fun q j hq => ?_⟩
    have := hq.length_le
    simp at this
  | cons i rest ih =>
    rw [putAtR_cons, childKey_keyOf] at h
    have hkc := hk.child i
    rw [childKey_keyOf] at hkc
    have hr := ih (pre ++ [i]) hkc
    rw [putAtR_cons, childKey_keyOf]
    generalize putAtR F (updateFaulty E PP env f) data rest (keyOf (pre ++ [i]))
      ((descGet v.desc i).getD (.mk (keyOf (pre ++ [i])) none [])) s = r1 at h hr ⊢
    rcases roundR_cases F (updateFaulty E PP env f) v rest.isEmpty i r1 with ⟨hc, -⟩ | ⟨hok, raw, hraw, -, hc⟩
    · rw [hc] at h; cases h
    · rcases hc with ⟨hc, -⟩ | ⟨-, hc⟩
      · rw [hc] at h; cases h
      have hvk : v.key = keyOf pre := by
        have := hk [] v rfl
        simpa using this
      rw [hvk] at hc
      obtain ⟨r2, r3⟩ := hr hok
      obtain ⟨-, hd⟩ := faulty_returns hE henv hc
      obtain ⟨w1, w2, w3⟩ := faulty_calls hc
      refine ⟨fun _ => hd, fun q j hq => ?_⟩
      cases q with
      | nil =>
        rw [List.append_nil]
        have hji : j = i := by
          have := List.cons_prefix_cons.1 hq
          exact this.1
        subst hji
        refine ⟨w1, fun u hu hud => ?_, fun hne => ?_⟩
        · rw [Sparse.find_nil, Option.some.injEq] at hu
          subst hu
          exact w2 hud
        · have hrest : rest ≠ [] := by rintro rfl; exact hne rfl
          refine w3 _ (by simpa using hrest) ?_
          obtain ⟨-, hlt⟩ := rawData_some _ _ _ hraw
          refine (rawData_get hraw j _).2 ⟨hlt j r1.vertex (by rw [descGet_descSet, if_pos rfl]), ?_⟩
          rw [descGet_descSet, if_pos rfl, Option.bind_some, r2 hrest]
      | cons x t =>
        have hx := List.cons_prefix_cons.1 hq
        obtain ⟨rfl, ht⟩ := hx
        obtain ⟨k1, k2, k3⟩ := r3 t j ht
        have e : pre ++ x :: t = pre ++ [x] ++ t := by simp
        rw [e]
        refine ⟨k1, fun u hu hud => k2 u ?_ hud, fun hne => k3 fun hc => hne (by rw [List.cons_append, hc])⟩
        rw [Sparse.find_cons] at hu
        obtain ⟨w, hw, hu⟩ := Option.bind_eq_some_iff.1 hu
        rw [hw]
        exact hu

end

end PoL.Verkle
