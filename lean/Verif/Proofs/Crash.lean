import Verif.Model.Crash
import Verif.Proofs.VerkleMore

/-! The database while a write is running. -/

set_option linter.unusedSectionVars false

namespace PoL.Verkle
open PoL.PP Sparse Spec

variable {G1 G2 GT : Type} [AddCommGroup G1] [Module Zr G1] [AddCommGroup G2] [Module Zr G2]
  [AddCommGroup GT] [Module Zr GT] [DecidableEq G1] [DecidableEq GT]

theorem snapshots_eq {D σ : Type} {upd : Update D σ} {key : Str} {node : Option D} {children : List (Option D)}
    {leaves : Bool} {index : ℕ} {s s' : σ} {d : Option D} (h : upd key node children leaves index s = some (d, s'))
    (l : List σ) : snapshots upd key node children leaves index (s, l) = some (d, (s', l ++ [s'])) := by
  unfold snapshots
  exact obind_step h rfl

/-- A run with snapshots is the run without, and the snapshots differ from the initial state only at the keys of
the vertices written so far. -/
theorem putAt_snapshots {E : Curve G1 G2 GT} {PP : PP G1 G2 GT} {env : Env} {F : ℕ} {data : Option Data}
    {path pre : List ℕ} {v v' : Sparse.Vertex Data} {s s' : State} (l : List State) (hv : KeysOk pre v)
    (h : putAt F (updateInnerVertex E PP env) data path (keyOf pre) v s = some (v', s')) :
    ∃ l', putAt F (snapshots (updateInnerVertex E PP env)) data path (keyOf pre) v (s, l) = some (v', (s', l ++ l')) ∧
      l'.length = path.length ∧
      (∀ key, (∀ j, j < path.length → key ≠ keyOf (pre ++ path.take j)) → s'.db key = s.db key) ∧
      ∀ k st, l'[k]? = some st → ∀ key,
        ((∃ j, path.length - (k + 1) ≤ j ∧ j < path.length ∧ key = keyOf (pre ++ path.take j)) →
          st.db key = s'.db key) ∧
        ((¬ ∃ j, path.length - (k + 1) ≤ j ∧ j < path.length ∧ key = keyOf (pre ++ path.take j)) →
          st.db key = s.db key) := by
  induction path generalizing pre v v' s s' with
  | nil =>
    obtain ⟨rfl, rfl⟩ := putAt_nil h
    exact ⟨[], by simp [putAt], rfl, fun _ _ => rfl, fun k st hk => by simp at hk⟩
  | cons p rest ih =>
    obtain ⟨child', s1, d, h1, h2, h3, rfl⟩ := putAt_cons h
    rw [childKey_keyOf] at h1
    obtain ⟨l1, i1, i2, i3, i4⟩ := ih (by have := hv.child p; rwa [childKey_keyOf] at this) h1
    have hkey : v.key = keyOf pre := by simpa using hv [] v rfl
    obtain ⟨x, hx, -, -, -⟩ := update_blinding h3
    have hother : ∀ key, key ≠ keyOf pre → s'.db key = s1.db key := by
      intro key hne
      rw [hx, store_db _ _ _ _ _ _ (by rw [hkey]; exact hne)]
    have hpre : ∀ j, keyOf (pre ++ [p] ++ rest.take j) ≠ keyOf pre := by
      intro j he
      have := congrArg List.length (keyOf_injective he)
      simp at this
    have htake : ∀ j, pre ++ (p :: rest).take (j + 1) = pre ++ [p] ++ rest.take j := by
      intro j; simp
    refine ⟨l1 ++ [s'], ?_, by simp [i2], ?_, ?_⟩
    · rw [Sparse.putAt, childKey_keyOf]
      refine obind_step i1 ?_
      dsimp only
      refine obind_step (rawData_eq _ F h2) ?_
      refine obind_step (snapshots_eq h3 _) ?_
      simp
    · intro key hk
      have h0 := hk 0 (by simp)
      rw [List.take_zero, List.append_nil] at h0
      rw [hother key h0]
      apply i3
      intro j hj
      have := hk (j + 1) (by simpa using hj)
      rwa [htake] at this
    · intro k st hst key
      rcases lt_or_ge k l1.length with hk | hk
      · rw [List.getElem?_append_left hk] at hst
        obtain ⟨a1, a2⟩ := i4 k st hst key
        rw [i2] at hk
        constructor
        · rintro ⟨j, hj1, hj2, rfl⟩
          obtain ⟨j, rfl⟩ : ∃ i, j = i + 1 := ⟨j - 1, by simp at hj1; omega⟩
          rw [htake] at a1 ⊢
          rw [hother _ (hpre j)]
          exact a1 ⟨j, by simp at hj1; omega, by simpa using hj2, rfl⟩
        · intro hn
          apply a2
          rintro ⟨j, hj1, hj2, rfl⟩
          exact hn ⟨j + 1, by simp; omega, by simpa using hj2, by rw [htake]⟩
      · rw [List.getElem?_append_right hk] at hst
        have hk0 : k - l1.length = 0 := by
          by_contra hc
          rw [List.getElem?_eq_none (by simp; omega)] at hst
          simp at hst
        rw [hk0] at hst
        simp only [List.getElem?_cons_zero, Option.some.injEq] at hst
        subst hst
        refine ⟨fun _ => rfl, fun hn => ?_⟩
        have hne : ∀ j, j < (p :: rest).length → key ≠ keyOf (pre ++ (p :: rest).take j) := by
          intro j hj he
          exact hn ⟨j, by simp only [List.length_cons]; omega, hj, he⟩
        have h0 := hne 0 (by simp)
        rw [List.take_zero, List.append_nil] at h0
        rw [hother key h0]
        apply i3
        intro j hj
        have := hne (j + 1) (by simpa using hj)
        rwa [htake] at this

/-- The states in which a write can stop. -/
theorem crashStates_eq {E : Curve G1 G2 GT} {env : Env} {t t1 t2 : Tree G1 G2 GT} (hroot : t.root = none)
    {hist : List (Str × ℤ)} {id : Str} {n : ℤ} {s s1 s2 : State}
    (h1 : t.puts E env hist s = some (t1, s1)) (h2 : t1.put E env id n s1 = some (t2, s2)) (p : List ℕ)
    (hp : t.id2Path id = some p) :
    ∃ l, t1.crashStates E env id n s1 = some l ∧ l.length = p.length + 1 ∧
      ∀ k st, l[k]? = some st → ∀ key,
        ((∃ j, p.length - k ≤ j ∧ j < p.length ∧ key = keyOf (p.take j)) → st.db key = s2.db key) ∧
        ((¬ ∃ j, p.length - k ≤ j ∧ j < p.length ∧ key = keyOf (p.take j)) → st.db key = s1.db key) := by
  have hh1 := h1
  rw [vputs_sparse] at hh1
  obtain ⟨⟨ts, s3⟩, h3, h4⟩ := Option.map_eq_some_iff.1 hh1
  simp only [Prod.mk.injEq] at h4
  obtain ⟨h4, rfl⟩ := h4
  have hkk := keysOk_puts (t0 := t.sparse E env) hroot _ _ _ h3
  have hrt : t1.root = ts.root := by rw [← h4]
  have hid : t1.id2Path = t.id2Path := by rw [← h4]
  unfold Tree.put at h2
  obtain ⟨⟨t3, s4⟩, h5, h6⟩ := obind_elim h2
  simp only [Option.pure_def, Option.some.injEq, Prod.mk.injEq] at h6
  obtain ⟨-, rfl⟩ := h6
  obtain ⟨path, root', hp'', hput, -⟩ := put_some h5
  have : path = p := by
    have : t1.id2Path id = some path := hp''
    rw [hid, hp] at this
    exact (Option.some.inj this).symm
  subst this
  have hput' : putAt t1.fanOut (updateInnerVertex E t1.PP env) (some (.amount n)) path (keyOf [])
      (t1.root.getD (.mk [] none [])) s3 = some (root', s4) := hput
  obtain ⟨l', i1, i2, -, i4⟩ := putAt_snapshots [s3] (pre := []) (by rw [hrt]; exact hkk) hput'
  refine ⟨s3 :: l', ?_, by simp [i2], ?_⟩
  · unfold Tree.crashStates
    rw [hid]
    exact obind_step hp (obind_step i1 rfl)
  · intro k st hst key
    cases k with
    | zero =>
      simp only [List.getElem?_cons_zero, Option.some.injEq] at hst
      subst hst
      refine ⟨?_, fun _ => rfl⟩
      rintro ⟨j, h1, h2, -⟩
      omega
    | succ k =>
      rw [List.getElem?_cons_succ] at hst
      have := i4 k st hst key
      simpa only [List.nil_append] using this

/-- One more write changes the amount below exactly the prefixes of its path. -/
theorem amountBelow_concat (h : List (List ℕ × ℤ)) (p : List ℕ) (n : ℤ) (q : List ℕ) :
    amountBelow (h ++ [(p, n)]) q = amountBelow h q + if q <+: p then n - latest h p else 0 := by
  have hlat : ∀ r, latest (h ++ [(p, n)]) r = if r = p then n else latest h r := by
    intro r
    unfold latest
    rw [lastPut_concat]
    by_cases hr : p = r
    · rw [if_pos hr, if_pos hr.symm]; rfl
    · rw [if_neg hr, if_neg (Ne.symm hr)]
  have h0 : ∀ r, r ∉ (h.map Prod.fst).toFinset → latest h r = 0 := by
    intro r hr
    unfold latest
    have : ¬ (lastPut h r).isSome := by
      rw [lastPut_isSome]; simpa using hr
    rw [Option.not_isSome_iff_eq_none] at this
    rw [this]; rfl
  -- sums over all written paths, including `p`
  have hext : amountBelow h q = ∑ r ∈ (insert p (h.map Prod.fst).toFinset).filter (fun r => q <+: r), latest h r := by
    unfold amountBelow
    apply Finset.sum_subset
    · intro r hr
      rw [Finset.mem_filter] at hr ⊢
      exact ⟨Finset.mem_insert_of_mem hr.1, hr.2⟩
    · intro r hr hn
      apply h0
      intro hc
      rw [Finset.mem_filter] at hr hn
      exact hn ⟨hc, hr.2⟩
  have hnew : amountBelow (h ++ [(p, n)]) q
      = ∑ r ∈ (insert p (h.map Prod.fst).toFinset).filter (fun r => q <+: r), (latest h r + if r = p then n - latest h p else 0) := by
    unfold amountBelow
    apply Finset.sum_congr
    · congr 1
      ext r
      simp
    · intro r _
      rw [hlat]
      by_cases hr : r = p
      · subst hr; rw [if_pos rfl, if_pos rfl]; ring
      · rw [if_neg hr, if_neg hr, add_zero]
  rw [hnew, Finset.sum_add_distrib, ← hext, Finset.sum_ite_eq']
  simp only [Finset.mem_filter, Finset.mem_insert, true_or, true_and]

end PoL.Verkle
