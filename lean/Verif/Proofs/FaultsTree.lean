import Verif.Proofs.Faults
import Verif.Proofs.RecoverFresh
import Verif.Proofs.VerkleUpdate

/-! Database calls failing inside a `Set`: the tree. -/

set_option linter.unusedSectionVars false

namespace PoL.Verkle
open PoL.PP Sparse Spec

variable {G1 G2 GT : Type} [AddCommGroup G1] [Module Zr G1] [AddCommGroup G2] [Module Zr G2]
  [AddCommGroup GT] [Module Zr GT] [DecidableEq G1] [DecidableEq GT]

/-- The stored vertex at `pre`, over vertices of height `h`: every child is entered as it is now, unless it is in `ex`. -/
def Entered (E : Curve G1 G2 GT) (α : Zr) (F : ℕ) (A : List ℕ → ℤ) (ex : List ℕ → Prop) (db : Db) (pre : List ℕ)
    (desc : List (ℕ × Sparse.Vertex Data)) : ℕ → Prop
  | 0 => ∃ bf vals V, load E db (keyOf pre) = some (leafVertex F bf vals V) ∧
      (∀ i, (vals i).isSome → (descGet desc i).isSome) ∧
      ∀ i, (descGet desc i).isSome → ¬ ex (pre ++ [i]) → vals i = some (intToZr (A (pre ++ [i])))
  | _ + 1 => ∃ bf vals digs, load E db (keyOf pre) = some (innerVertex E α F bf vals digs) ∧
      (∀ i, (vals i).isSome = (digs i).isSome) ∧
      (∀ i, (vals i).isSome → ∃ w, descGet desc i = some w ∧ w.data.isSome) ∧
      ∀ i, (descGet desc i).isSome → ¬ ex (pre ++ [i]) →
        ∃ y, load E db (keyOf (pre ++ [i])) = some y ∧ vals i = some y.sum ∧ digs i = some (dig E y)

/-- The vertex at `pre`, of height `h`, and all below it: vertices without data are in `ex` and not in `dn`,
the others are stored. -/
def Loose (E : Curve G1 G2 GT) (α : Zr) (F : ℕ) (A : List ℕ → ℤ) (ex dn : List ℕ → Prop) (db : Db) :
    ℕ → List ℕ → Sparse.Vertex Data → Prop
  | 0, pre, v => v.data = some (.amount (A pre))
  | h + 1, pre, v => v.key = keyOf pre ∧
      (∀ i w, descGet v.desc i = some w → i < F ∧ Loose E α F A ex dn db h (pre ++ [i]) w) ∧
      (∀ i, descGet v.desc i = none → ∀ t, ¬ dn (pre ++ i :: t)) ∧
      (v.data = none ∧ ¬ dn pre ∧ ex pre ∨ v.data = some (.key (keyOf pre)) ∧ Entered E α F A ex db pre v.desc h)

section
variable {E : Curve G1 G2 GT} {α : Zr} {F : ℕ} {A A' : List ℕ → ℤ} {ex ex' dn dn' : List ℕ → Prop} {db db' : Db}

theorem Entered.congr {h : ℕ} {pre : List ℕ} {desc : List (ℕ × Sparse.Vertex Data)} (hv : Entered E α F A ex db pre desc h)
    (hdb : ∀ t, load E db' (keyOf (pre ++ t)) = load E db (keyOf (pre ++ t))) (hA : ∀ t, A' (pre ++ t) = A (pre ++ t))
    (hex : ∀ i, ex (pre ++ [i]) → ex' (pre ++ [i])) : Entered E α F A' ex' db' pre desc h := by
  have h0 : load E db' (keyOf pre) = load E db (keyOf pre) := by simpa using hdb []
  cases h with
  | zero =>
    obtain ⟨bf, vals, V, h1, h2, h3⟩ := hv
    exact ⟨bf, vals, V, h0.trans h1, h2, fun i hi hn => by rw [hA]; exact h3 i hi fun hc => hn (hex _ hc)⟩
  | succ h =>
    obtain ⟨bf, vals, digs, h1, h2, h3, h4⟩ := hv
    exact ⟨bf, vals, digs, h0.trans h1, h2, h3, fun i hi hn => by rw [hdb]; exact h4 i hi fun hc => hn (hex _ hc)⟩

theorem Loose.congr {h : ℕ} {pre : List ℕ} {v : Sparse.Vertex Data} (hv : Loose E α F A ex dn db h pre v)
    (hdb : ∀ t, load E db' (keyOf (pre ++ t)) = load E db (keyOf (pre ++ t))) (hA : ∀ t, A' (pre ++ t) = A (pre ++ t))
    (hex : ∀ t, ex (pre ++ t) → ex' (pre ++ t)) (hdn : ∀ t, dn' (pre ++ t) → dn (pre ++ t)) :
    Loose E α F A' ex' dn' db' h pre v := by
  induction h generalizing pre v with
  | zero =>
    have := hA []
    rw [List.append_nil] at this
    show _ = _
    rw [this]
    exact hv
  | succ h ih =>
    obtain ⟨h1, h2, h3, h4⟩ := hv
    refine ⟨h1, fun i w hw => ⟨(h2 i w hw).1, ih (h2 i w hw).2 ?_ ?_ ?_ ?_⟩, fun i hi t hc => h3 i hi t (hdn _ hc), ?_⟩
    · intro t; rw [List.append_assoc]; exact hdb _
    · intro t; rw [List.append_assoc]; exact hA _
    · intro t; rw [List.append_assoc]; exact hex _
    · intro t; rw [List.append_assoc]; exact hdn _
    · rcases h4 with ⟨h4, h5, h6⟩ | ⟨h4, h5⟩
      · refine .inl ⟨h4, fun hc => h5 ?_, ?_⟩
        · have := hdn []
          rw [List.append_nil] at this
          exact this hc
        · have := hex []
          rw [List.append_nil] at this
          exact this h6
      · exact .inr ⟨h4, h5.congr hdb hA fun i => hex [i]⟩

theorem Loose.fresh (h : ℕ) (pre : List ℕ) (hdn : ∀ t, ¬ dn (pre ++ t)) (hex : ex pre) :
    Loose E α F A ex dn db (h + 1) pre (.mk (keyOf pre) none []) := by
  refine ⟨rfl, fun i w hw => ?_, fun i _ t => hdn (i :: t), Or.inl ⟨rfl, by simpa using hdn [], hex⟩⟩
  simp [Sparse.Vertex.desc, descGet] at hw

/-- A vertex with data is stored. -/
theorem Loose.stored {h : ℕ} {pre : List ℕ} {v : Sparse.Vertex Data} (hv : Loose E α F A ex dn db (h + 1) pre v)
    (hd : v.data.isSome) : v.data = some (.key (keyOf pre)) ∧ ∃ x, load E db (keyOf pre) = some x := by
  obtain ⟨-, -, -, h4⟩ := hv
  rcases h4 with ⟨h4, -⟩ | ⟨h4, h5⟩
  · rw [h4] at hd; cases hd
  · refine ⟨h4, ?_⟩
    cases h with
    | zero => obtain ⟨bf, vals, V, h1, -⟩ := h5; exact ⟨_, h1⟩
    | succ h => obtain ⟨bf, vals, digs, h1, -⟩ := h5; exact ⟨_, h1⟩

/-- The callback for a vertex, after the rounds below it. -/
structure Called (E : Curve G1 G2 GT) (α : Zr) (F : ℕ) (A : List ℕ → ℤ) (ex : List ℕ → Prop) (env : Env) (f : Faults)
    (pre : List ℕ) (data : Option Data) (desc : List (ℕ × Sparse.Vertex Data)) (h i : ℕ) (s : State)
    (r : Option (Option Data) × State) : Prop where
  foot : ∀ k, k ≠ keyOf pre → r.2.db k = s.db k
  failed : r.1 = none → load E r.2.db (keyOf pre) = load E s.db (keyOf pre)
  ok : ∀ d, r.1 = some d → d = some (.key (keyOf pre)) ∧ Entered E α F A (fun c => ex c ∧ c ≠ pre ++ [i]) r.2.db pre desc h
  none : f = Faults.none → r.1.isSome

/-- The callback over the leaves. -/
theorem call_leaf (hE : E.Lawful) {env : Env} (henv : env.Lawful) (hF : F + 2 ≤ 65536) (f : Faults) {pre : List ℕ}
    {data : Option Data} {desc desc0 : List (ℕ × Sparse.Vertex Data)} {i : ℕ} (hi : i < F) {s : State}
    (hch : ∀ j w, descGet desc j = some w → w.data = some (.amount (A (pre ++ [j])))) (hii : (descGet desc i).isSome)
    (hsame : ∀ j, j ≠ i → descGet desc j = descGet desc0 j)
    (hAA : ∀ j, j ≠ i → A' (pre ++ [j]) = A (pre ++ [j]))
    (hdata : data = none ∨ data = some (.key (keyOf pre)) ∧ Entered E α F A' ex s.db pre desc0 0) :
    Called E α F A ex env f pre data desc 0 i s
      (updateFaulty E (newPublicParams E α (F + 2)) env f (keyOf pre) data
        ((List.range F).map fun j => (descGet desc j).bind Sparse.Vertex.data) true i s) := by
  obtain ⟨w, hw⟩ := Option.isSome_iff_exists.1 hii
  have hgi : (fun j => (descGet desc j).bind Sparse.Vertex.data) i = some (.amount (A (pre ++ [i]))) := by
    dsimp only
    rw [hw, Option.bind_some, hch i w hw]
  rcases hdata with rfl | ⟨rfl, bf, vals, V, h1, h2, h3⟩
  · have hnew : ∀ s0 : State, _ := fun s0 => updateLeaf_new E α F (by omega) env (keyOf pre)
      (fun j => (descGet desc j).bind Sparse.Vertex.data) (fun j => (descGet desc j).map fun _ => A (pre ++ [j])) i s0 (by
        intro j _
        cases hd : descGet desc j with
        | none => rfl
        | some w => simp [hch j w hd])
    refine ⟨fun k hk => faulty_footprint _ k hk, fun hn => ?_, fun d hd => ?_, fun hf => ?_⟩
    · rw [faulty_new hn]
    · obtain ⟨k1, k2⟩ := faulty_returns hE henv hd
      refine ⟨k2, ?_⟩
      unfold updateInnerVertex at k1
      rw [if_pos rfl, hnew s, Option.some.injEq, Prod.mk.injEq] at k1
      rw [← k1.2]
      refine ⟨_, _, _, load_store_self hE henv _ _ _, fun j hj => ?_, fun j hj _ => ?_⟩
      · simpa using hj
      · obtain ⟨w, hw⟩ := Option.isSome_iff_exists.1 hj
        rw [hw]; rfl
    · subst hf
      rw [faulty_none]
      have := (updateR_iff E (newPublicParams E α (F + 2)) env (keyOf pre) none
        ((List.range F).map fun j => (descGet desc j).bind Sparse.Vertex.data) true i s _ _).2 (by
          unfold updateInnerVertex; rw [if_pos rfl]; exact hnew s)
      rw [this]; rfl
  · have hold : ∀ s0 : State, load E s0.db (keyOf pre) = some (leafVertex F bf vals V) → _ := fun s0 h0 =>
      updateLeaf_old E α F hF env (keyOf pre) (.key (keyOf pre)) (fun j => (descGet desc j).bind Sparse.Vertex.data) i hi s0
        bf vals V h0 _ hgi
    refine ⟨fun k hk => faulty_footprint _ k hk, fun hn => ?_, fun d hd => ?_, fun hf => ?_⟩
    · rw [h1]
      refine faulty_old hE henv h1 (fun s0 h0 _ => ?_) hn
      unfold updateInnerVertex
      rw [if_pos rfl, hold s0 h0]
      rfl
    · obtain ⟨k1, k2⟩ := faulty_returns hE henv hd
      refine ⟨k2, ?_⟩
      unfold updateInnerVertex at k1
      rw [if_pos rfl, hold s h1, Option.some.injEq, Prod.mk.injEq] at k1
      rw [← k1.2]
      refine ⟨_, _, _, load_store_self hE henv _ _ _, fun j hj => ?_, fun j hj hn => ?_⟩
      · by_cases hji : j = i
        · rw [hji]; exact hii
        · rw [Function.update_of_ne hji] at hj
          rw [hsame j hji]
          exact h2 j hj
      · by_cases hji : j = i
        · subst hji; rw [Function.update_self]
        · rw [Function.update_of_ne hji, ← hAA j hji]
          rw [hsame j hji] at hj
          exact h3 j hj fun hc => hn ⟨hc, by simpa using hji⟩
    · subst hf
      rw [faulty_none]
      have := (updateR_iff E (newPublicParams E α (F + 2)) env (keyOf pre) (some (.key (keyOf pre)))
        ((List.range F).map fun j => (descGet desc j).bind Sparse.Vertex.data) true i s _ _).2 (by
          unfold updateInnerVertex; rw [if_pos rfl]; exact hold s h1)
      rw [this]; rfl

/-- The callback in the layers above. -/
theorem call_upper (hE : E.Lawful) {env : Env} (henv : env.Lawful) (hF : F + 2 ≤ 65536) (f : Faults) {pre : List ℕ}
    {data : Option Data} {desc desc0 : List (ℕ × Sparse.Vertex Data)} {h i : ℕ} (hi : i < F) {s : State}
    (hch : ∀ j w, descGet desc j = some w → w.data = none ∧ ex (pre ++ [j]) ∧ j ≠ i ∨
      w.data = some (.key (keyOf (pre ++ [j]))) ∧ ∃ x, load E s.db (keyOf (pre ++ [j])) = some x)
    (hii : (descGet desc i).isSome) (hsame : ∀ j, j ≠ i → descGet desc j = descGet desc0 j)
    (hdata : data = none ∨ data = some (.key (keyOf pre)) ∧ Entered E α F A' ex s.db pre desc0 (h + 1)) :
    Called E α F A ex env f pre data desc (h + 1) i s
      (updateFaulty E (newPublicParams E α (F + 2)) env f (keyOf pre) data
        ((List.range F).map fun j => (descGet desc j).bind Sparse.Vertex.data) false i s) := by
  have hframe : ∀ x j, load E (store E env (keyOf pre) x s).db (keyOf (pre ++ [j])) = load E s.db (keyOf (pre ++ [j])) :=
    fun x j => load_congr E (store_db E env _ x s _ (key_longer (by simp)))
  obtain ⟨w, hw⟩ := Option.isSome_iff_exists.1 hii
  obtain ⟨hwd, y, hy⟩ : w.data = some (.key (keyOf (pre ++ [i]))) ∧ ∃ x, load E s.db (keyOf (pre ++ [i])) = some x := by
    rcases hch i w hw with ⟨-, -, hc⟩ | hc
    · exact absurd rfl hc
    · exact hc
  have hgi : (fun j => (descGet desc j).bind Sparse.Vertex.data) i = some (.key (keyOf (pre ++ [i]))) := by
    dsimp only
    rw [hw, Option.bind_some, hwd]
  rcases hdata with rfl | ⟨rfl, bf, vals, digs, h1, h2, h3, h4⟩
  · have hnew := updateInner_new hE α F (by omega) env (keyOf pre)
      (fun j => (descGet desc j).bind Sparse.Vertex.data)
      (fun j => ((descGet desc j).bind Sparse.Vertex.data).bind fun _ => load E s.db (keyOf (pre ++ [j]))) i s (by
        intro j _
        cases hd : descGet desc j with
        | none => exact .inl ⟨by simp, by simp⟩
        | some w =>
          rcases hch j w hd with ⟨hc, -⟩ | ⟨hc, x, hx⟩
          · exact .inl ⟨by simp [hc], by simp [hc]⟩
          · exact .inr ⟨_, x, by simp [hc], by simp [hc, hx], hx⟩)
    refine ⟨fun k hk => faulty_footprint _ k hk, fun hn => ?_, fun d hd => ?_, fun hf => ?_⟩
    · rw [faulty_new hn]
    · obtain ⟨k1, k2⟩ := faulty_returns hE henv hd
      refine ⟨k2, ?_⟩
      unfold updateInnerVertex at k1
      rw [if_neg (by simp), hnew, Option.some.injEq, Prod.mk.injEq] at k1
      rw [← k1.2]
      refine ⟨_, _, _, load_store_self hE henv _ _ _, fun j => by
        cases ((descGet desc j).bind Sparse.Vertex.data).bind fun _ => load E s.db (keyOf (pre ++ [j])) <;> rfl,
        fun j hj => ?_, fun j hj hn => ?_⟩
      · cases hd : descGet desc j with
        | none => simp [hd] at hj
        | some w =>
          refine ⟨w, rfl, ?_⟩
          cases hwd : w.data with
          | none => simp [hd, hwd] at hj
          | some d => rfl
      · obtain ⟨w, hw⟩ := Option.isSome_iff_exists.1 hj
        rcases hch j w hw with ⟨-, hc, hji⟩ | ⟨hc, x, hx⟩
        · exact absurd ⟨hc, by simpa using hji⟩ hn
        · exact ⟨x, by rw [hframe, hx], by simp [hw, hc, hx], by simp [hw, hc, hx]⟩
    · subst hf
      rw [faulty_none]
      have := (updateR_iff E (newPublicParams E α (F + 2)) env (keyOf pre) none
        ((List.range F).map fun j => (descGet desc j).bind Sparse.Vertex.data) false i s _ _).2 (by
          unfold updateInnerVertex; rw [if_neg (by simp)]; exact hnew)
      rw [this]; rfl
  · have hold : ∀ (s0 : State) (y : Vertex G1), load E s0.db (keyOf pre) = some (innerVertex E α F bf vals digs) →
        load E s0.db (keyOf (pre ++ [i])) = some y → _ := fun s0 y h0 hy =>
      updateInner_old hE α F hF env (keyOf pre) (.key (keyOf pre)) (fun j => (descGet desc j).bind Sparse.Vertex.data) i hi s0
        bf vals digs h2 h0 y (by rw [show (descGet desc i).bind Sparse.Vertex.data = _ from hgi]; exact hy)
    refine ⟨fun k hk => faulty_footprint _ k hk, fun hn => ?_, fun d hd => ?_, fun hf => ?_⟩
    · rw [h1]
      refine faulty_old hE henv h1 (fun s0 h0 hc => ?_) hn
      obtain ⟨c, hc⟩ := Option.isSome_iff_exists.1 (hc rfl)
      obtain ⟨y0, hy0⟩ : ∃ y0, load E s0.db (keyOf (pre ++ [i])) = some y0 := by
        unfold childOf at hc
        have hd : ((List.range F).map fun j => (descGet desc j).bind Sparse.Vertex.data)[i]?
            = some (some (.key (keyOf (pre ++ [i])))) := by
          rw [← hgi]; simp [hi]
        rw [hd] at hc
        obtain ⟨y0, h0, -⟩ := Option.bind_eq_some_iff.1 (show (fetchVertex E s0.db _).bind _ = some c from hc)
        exact ⟨y0, h0⟩
      unfold updateInnerVertex
      rw [if_neg (by simp), hold s0 y0 h0 hy0]
      rfl
    · obtain ⟨k1, k2⟩ := faulty_returns hE henv hd
      refine ⟨k2, ?_⟩
      unfold updateInnerVertex at k1
      rw [if_neg (by simp), hold s y h1 hy, Option.some.injEq, Prod.mk.injEq] at k1
      rw [← k1.2]
      refine ⟨_, _, _, load_store_self hE henv _ _ _, fun j => ?_, fun j hj => ?_, fun j hj hn => ?_⟩
      · by_cases hji : j = i
        · subst hji; simp
        · rw [Function.update_of_ne hji, Function.update_of_ne hji]; exact h2 j
      · by_cases hji : j = i
        · subst hji; exact ⟨w, hw, by rw [hwd]; rfl⟩
        · rw [Function.update_of_ne hji] at hj
          rw [hsame j hji]
          exact h3 j hj
      · rw [hframe]
        by_cases hji : j = i
        · subst hji; exact ⟨y, hy, by rw [Function.update_self], by rw [Function.update_self]⟩
        · rw [Function.update_of_ne hji, Function.update_of_ne hji]
          rw [hsame j hji] at hj
          exact h4 j hj fun hc => hn ⟨hc, by simpa using hji⟩
    · subst hf
      rw [faulty_none]
      have := (updateR_iff E (newPublicParams E α (F + 2)) env (keyOf pre) (some (.key (keyOf pre)))
        ((List.range F).map fun j => (descGet desc j).bind Sparse.Vertex.data) false i s _ _).2 (by
          unfold updateInnerVertex; rw [if_neg (by simp)]; exact hold s y h1 hy)
      rw [this]; rfl

/-- What a `Put` of `n` at `pre ++ rest` leaves of the vertex at `pre`. -/
structure Struggled (E : Curve G1 G2 GT) (α : Zr) (F : ℕ) (A : List ℕ → ℤ) (ex dn : List ℕ → Prop) (f : Faults) (pre : List ℕ)
    (rest : List ℕ) (v : Sparse.Vertex Data) (s : State) (r : Left (Sparse.Vertex Data) State) : Prop where
  foot : ∀ k, (∀ t, k ≠ keyOf (pre ++ t)) → r.state.db k = s.db k
  ok : r.ok = true → Loose E α F A (fun c => ex c ∧ ¬ c <+: pre ++ rest) (fun c => dn c ∨ c <+: pre ++ rest) r.state.db
    rest.length pre r.vertex ∧ r.vertex.data.isSome
  failed : r.ok = false → Loose E α F A ex dn r.state.db rest.length pre r.vertex ∧
    load E r.state.db (keyOf pre) = load E s.db (keyOf pre) ∧ r.vertex.data = v.data ∧ rest ≠ []
  data : v.data.isSome → r.vertex.data.isSome
  none : f = Faults.none → r.ok = true

theorem not_below_child {pre : List ℕ} {i j : ℕ} (hji : j ≠ i) (t rest : List ℕ) : ¬ pre ++ [j] ++ t <+: pre ++ i :: rest := by
  rw [List.append_assoc, List.prefix_append_right_inj]
  intro h
  simp only [List.cons_append, List.nil_append] at h
  exact hji (List.cons_prefix_cons.1 h).1

theorem Loose.put (hE : E.Lawful) {env : Env} (henv : env.Lawful) (hF : F + 2 ≤ 65536) (f : Faults) (n : ℤ)
    (rest pre : List ℕ) (hrest : ∀ x ∈ rest, x < F) (hex : ∀ c, c <+: pre ++ rest → ex c) {v : Sparse.Vertex Data} {s : State}
    (hv : rest ≠ [] → Loose E α F A ex dn s.db rest.length pre v) :
    Struggled E α F (Function.update A (pre ++ rest) n) ex dn f pre rest v s
      (putAtR F (updateFaulty E (newPublicParams E α (F + 2)) env f) (some (.amount n)) rest (keyOf pre) v s) := by
  induction rest generalizing pre v with
  | nil =>
    refine ⟨fun _ _ => rfl, fun _ => ⟨?_, rfl⟩, fun h => (by cases h), fun _ => rfl, fun _ => rfl⟩
    show some (Data.amount n) = some (.amount (Function.update A (pre ++ []) n pre))
    rw [List.append_nil, Function.update_self]
  | cons i rest ih =>
    obtain ⟨h1, h2, h3, h4⟩ := hv (by simp)
    have hi : i < F := hrest i (by simp)
    have hpp : pre ++ [i] ++ rest = pre ++ i :: rest := by simp
    have hr := ih (pre ++ [i]) (fun x hx => hrest x (by simp [hx])) (by rw [hpp]; exact hex)
      (v := (descGet v.desc i).getD (.mk (keyOf (pre ++ [i])) none [])) (by
        intro hne
        cases hd : descGet v.desc i with
        | some w => exact (h2 i w hd).2
        | none =>
          obtain ⟨m, hm⟩ : ∃ m, rest.length = m + 1 := ⟨rest.length - 1, by have := List.length_pos_of_ne_nil hne; omega⟩
          rw [hm]
          refine Loose.fresh m _ (fun t => ?_) (hex _ ⟨rest, by simp⟩)
          rw [List.append_assoc]
          exact h3 i hd t)
    rw [putAtR_cons, childKey_keyOf]
    rw [hpp] at hr
    generalize putAtR F (updateFaulty E (newPublicParams E α (F + 2)) env f) (some (.amount n)) rest (keyOf (pre ++ [i]))
      ((descGet v.desc i).getD (.mk (keyOf (pre ++ [i])) none [])) s = r1 at hr ⊢
    have hfoot1 : ∀ t, (∀ t', t ≠ i :: t') → r1.state.db (keyOf (pre ++ t)) = s.db (keyOf (pre ++ t)) := by
      intro t ht
      refine hr.foot _ fun t' hc => ht t' ?_
      have := keyOf_injective hc
      rw [List.append_assoc, List.append_cancel_left_eq] at this
      exact this
    have hpre1 : r1.state.db (keyOf pre) = s.db (keyOf pre) := by
      have := hfoot1 [] (by simp)
      rwa [List.append_nil] at this
    have hA : ∀ j t, j ≠ i → Function.update A (pre ++ i :: rest) n (pre ++ [j] ++ t) = A (pre ++ [j] ++ t) := by
      intro j t hji
      refine Function.update_of_ne (fun hc => hji ?_) ..
      rw [List.append_assoc, List.append_cancel_left_eq] at hc
      exact (List.cons.inj hc).1
    -- the children beside `i`
    have hside : ∀ (ex' dn' : List ℕ → Prop) (db' : Db), (∀ t, t ≠ [] → load E db' (keyOf (pre ++ t)) = load E r1.state.db (keyOf (pre ++ t))) →
        (∀ c, ex c → ¬ c <+: pre ++ i :: rest → ex' c) → (∀ c, dn' c → ¬ c <+: pre ++ i :: rest → dn c) →
        ∀ j w, j ≠ i → descGet v.desc j = some w →
          Loose E α F (Function.update A (pre ++ i :: rest) n) ex' dn' db' rest.length (pre ++ [j]) w := by
      intro ex' dn' db' hdb hex' hdn' j w hji hw
      refine (h2 j w hw).2.congr (fun t => ?_) (fun t => hA j t hji) (fun t hc => hex' _ hc (not_below_child hji t rest))
        (fun t hc => hdn' _ hc (not_below_child hji t rest))
      rw [List.append_assoc, hdb _ (by simp)]
      refine load_congr E (hfoot1 _ fun t' hc => hji ?_)
      simp at hc
      exact hc.1
    have hdesc : ∀ j w, descGet (descSet v.desc i r1.vertex) j = some w → (j = i ∧ w = r1.vertex) ∨
        (j ≠ i ∧ descGet v.desc j = some w) := by
      intro j w hw
      rw [descGet_descSet] at hw
      split_ifs at hw with hij
      · exact .inl ⟨hij.symm, (Option.some.inj hw).symm⟩
      · exact .inr ⟨fun hc => hij hc.symm, hw⟩
    have hii : (descGet (descSet v.desc i r1.vertex) i).isSome := by rw [descGet_descSet, if_pos rfl]; rfl
    have hsame : ∀ j, j ≠ i → descGet (descSet v.desc i r1.vertex) j = descGet v.desc j := by
      intro j hji
      rw [descGet_descSet, if_neg (Ne.symm hji)]
    have hgone : ∀ dn' : List ℕ → Prop, (∀ c, dn' c → ¬ c <+: pre ++ i :: rest → dn c) →
        ∀ j, descGet (descSet v.desc i r1.vertex) j = none → ∀ t, ¬ dn' (pre ++ j :: t) := by
      intro dn' hdn' j hj t hc
      have hji : j ≠ i := by rintro rfl; rw [hj] at hii; cases hii
      rw [hsame j hji] at hj
      have e : pre ++ j :: t = pre ++ [j] ++ t := by simp
      refine h3 j hj t (hdn' _ hc ?_)
      rw [e]
      exact not_below_child hji t rest
    -- the entries of the vertex itself, if it is not written
    have hkept : ∀ db' : Db, (∀ t, load E db' (keyOf (pre ++ t)) = load E r1.state.db (keyOf (pre ++ t))) →
        (v.data = none ∧ ¬ dn pre ∧ ex pre ∨ v.data = some (.key (keyOf pre)) ∧
          Entered E α F (Function.update A (pre ++ i :: rest) n) ex db' pre (descSet v.desc i r1.vertex) rest.length) := by
      intro db' hdb
      refine h4.imp id fun ⟨h4, h5⟩ => ⟨h4, ?_⟩
      have h0 : load E db' (keyOf pre) = load E s.db (keyOf pre) := by
        have := hdb []
        rw [List.append_nil] at this
        rw [this]
        exact load_congr E hpre1
      have hexi : ex (pre ++ [i]) := hex _ ⟨rest, by simp⟩
      cases hlen : rest.length with
      | zero =>
        rw [hlen] at h5
        obtain ⟨bf, vals, V, k1, k2, k3⟩ := h5
        refine ⟨bf, vals, V, h0.trans k1, fun j hj => ?_, fun j hj hn => ?_⟩
        · by_cases hji : j = i
          · rw [hji]; exact hii
          · rw [hsame j hji]; exact k2 j hj
        · have hji : j ≠ i := by rintro rfl; exact hn hexi
          rw [hsame j hji] at hj
          have := hA j [] hji
          rw [List.append_nil] at this
          rw [this]
          exact k3 j hj hn
      | succ m =>
        rw [hlen] at h5
        obtain ⟨bf, vals, digs, k1, k2, k3, k4⟩ := h5
        refine ⟨bf, vals, digs, h0.trans k1, k2, fun j hj => ?_, fun j hj hn => ?_⟩
        · obtain ⟨w, hw, hwd⟩ := k3 j hj
          by_cases hji : j = i
          · subst hji
            refine ⟨r1.vertex, by rw [descGet_descSet, if_pos rfl], hr.data ?_⟩
            rw [hw]; exact hwd
          · exact ⟨w, by rw [hsame j hji]; exact hw, hwd⟩
        · have hji : j ≠ i := by rintro rfl; exact hn hexi
          rw [hsame j hji] at hj
          rw [hdb, load_congr E (hfoot1 [j] (by intro t' hc; exact hji (List.cons.inj hc).1))]
          exact k4 j hj hn
    have hfootAll : ∀ k, (∀ t, k ≠ keyOf (pre ++ t)) → r1.state.db k = s.db k := by
      intro k hk
      exact hr.foot k fun t => by rw [List.append_assoc]; exact hk _
    cases hok : r1.ok with
    | false =>
      rw [roundR_not_ok _ _ _ _ _ _ hok]
      obtain ⟨c1, -, -, -⟩ := hr.failed hok
      refine ⟨hfootAll, fun h => (by simp at h), fun _ => ⟨⟨h1, ?_, ?_, ?_⟩, load_congr E hpre1, rfl, by simp⟩, id, fun hf => ?_⟩
      · intro j w hw
        rcases hdesc j w hw with ⟨rfl, rfl⟩ | ⟨hji, hw⟩
        · exact ⟨hi, c1⟩
        · exact ⟨(h2 j w hw).1, hside ex dn _ (fun _ _ => rfl) (fun _ h _ => h) (fun _ h _ => h) j w hji hw⟩
      · exact hgone dn fun _ h _ => h
      · exact hkept _ fun _ => rfl
      · rw [hr.none hf] at hok; cases hok
    | true =>
      obtain ⟨c1, c2⟩ := hr.ok hok
      have hraw : rawData (descSet v.desc i r1.vertex) F
          = some ((List.range F).map fun j => (descGet (descSet v.desc i r1.vertex) j).bind Sparse.Vertex.data) := by
        refine rawData_eq _ _ fun j w hw => ?_
        rcases hdesc j w hw with ⟨rfl, -⟩ | ⟨-, hw⟩
        · exact hi
        · exact (h2 j w hw).1
      have hround : roundR F (updateFaulty E (newPublicParams E α (F + 2)) env f) v rest.isEmpty i r1
          = assignR F (updateFaulty E (newPublicParams E α (F + 2)) env f) (keyOf pre) v.data (descSet v.desc i r1.vertex)
            rest.isEmpty i r1.state := by
        unfold roundR
        rw [if_pos hok, h1]
      rw [hround]
      unfold assignR
      rw [hraw]
      dsimp only
      have hcall : Called E α F (Function.update A (pre ++ i :: rest) n) ex env f pre v.data (descSet v.desc i r1.vertex)
          rest.length i r1.state (updateFaulty E (newPublicParams E α (F + 2)) env f (keyOf pre) v.data
            ((List.range F).map fun j => (descGet (descSet v.desc i r1.vertex) j).bind Sparse.Vertex.data) rest.isEmpty i r1.state) := by
        cases rest with
        | nil =>
          refine call_leaf hE henv hF f hi ?_ hii (fun _ _ => rfl) (fun _ _ => rfl)
            ((hkept _ fun _ => rfl).imp (fun h => h.1) id)
          intro j w hw
          rcases hdesc j w hw with ⟨rfl, rfl⟩ | ⟨hji, hw⟩
          · exact c1
          · exact hside ex dn r1.state.db (fun _ _ => rfl) (fun _ h _ => h) (fun _ h _ => h) j w hji hw
        | cons a rest =>
          refine call_upper hE henv hF f hi ?_ hii (fun _ _ => rfl) ((hkept _ fun _ => rfl).imp (fun h => h.1) id)
          intro j w hw
          rcases hdesc j w hw with ⟨rfl, rfl⟩ | ⟨hji, hw⟩
          · exact .inr (c1.stored c2)
          · have hl := hside ex dn r1.state.db (fun _ _ => rfl) (fun _ h _ => h) (fun _ h _ => h) j w hji hw
            cases hd : w.data with
            | none =>
              obtain ⟨-, -, -, hl⟩ := hl
              rcases hl with ⟨-, -, hl⟩ | ⟨hl, -⟩
              · exact .inl ⟨rfl, hl, hji⟩
              · rw [hd] at hl; cases hl
            | some d =>
              rw [← hd]
              exact .inr (hl.stored (by rw [hd]; rfl))
      generalize updateFaulty E (newPublicParams E α (F + 2)) env f (keyOf pre) v.data
            ((List.range F).map fun j => (descGet (descSet v.desc i r1.vertex) j).bind Sparse.Vertex.data) rest.isEmpty i r1.state
        = u at hcall ⊢
      have hbelow : ∀ t, t ≠ [] → load E u.2.db (keyOf (pre ++ t)) = load E r1.state.db (keyOf (pre ++ t)) :=
        fun t ht => load_congr E (hcall.foot _ (key_longer ht))
      obtain ⟨ud, us⟩ := u
      cases ud with
      | none =>
        dsimp only
        have hsameAll : ∀ t, load E us.db (keyOf (pre ++ t)) = load E r1.state.db (keyOf (pre ++ t)) := by
          intro t
          by_cases ht : t = []
          · subst ht
            rw [List.append_nil]
            exact hcall.failed rfl
          · exact hbelow t ht
        refine ⟨fun k hk => ?_, fun h => (by simp at h), fun _ => ⟨⟨rfl, ?_, ?_, ?_⟩, ?_, rfl, by simp⟩, id, fun hf => ?_⟩
        · rw [show us.db k = r1.state.db k from hcall.foot k (by simpa using hk []), hfootAll k hk]
        · intro j w hw
          rcases hdesc j w hw with ⟨rfl, rfl⟩ | ⟨hji, hw⟩
          · refine ⟨hi, c1.congr (fun t => ?_) (fun _ => rfl) (fun t h => h.1) (fun t h => .inl h)⟩
            rw [List.append_assoc]
            exact hsameAll _
          · exact ⟨(h2 j w hw).1, hside ex dn _ (fun t _ => hsameAll t) (fun _ h _ => h) (fun _ h _ => h) j w hji hw⟩
        · exact hgone dn fun _ h _ => h
        · exact hkept _ hsameAll
        · show load E us.db _ = _
          rw [show load E us.db (keyOf pre) = load E r1.state.db (keyOf pre) from hcall.failed rfl]
          exact load_congr E hpre1
        · have := hcall.none hf
          cases this
      | some d =>
        dsimp only
        obtain ⟨rfl, hent⟩ := hcall.ok d rfl
        refine ⟨fun k hk => ?_, fun _ => ⟨⟨rfl, ?_, ?_, .inr ⟨rfl, ?_⟩⟩, rfl⟩, fun h => (by simp at h), fun _ => rfl, fun _ => rfl⟩
        · rw [show us.db k = r1.state.db k from hcall.foot k (by simpa using hk []), hfootAll k hk]
        · intro j w hw
          rcases hdesc j w hw with ⟨rfl, rfl⟩ | ⟨hji, hw⟩
          · refine ⟨hi, c1.congr (fun t => ?_) (fun _ => rfl) (fun t h => by rwa [hpp] at h) (fun t h => by rwa [hpp])⟩
            rw [List.append_assoc]
            exact hbelow _ (by simp)
          · refine ⟨(h2 j w hw).1, hside _ _ _ hbelow (fun _ h h' => ⟨h, h'⟩) (fun c h h' => ?_) j w hji hw⟩
            exact h.resolve_right h'
        · exact hgone _ fun c h h' => Or.resolve_right h h'
        · refine hent.congr (fun _ => rfl) (fun _ => rfl) fun j hj => ⟨hj.1, fun hc => ?_⟩
          have hji : j ≠ i := fun hc => hj.2 (by rw [hc])
          have := not_below_child (pre := pre) hji [] rest
          rw [List.append_nil] at this
          exact this hc

end

end PoL.Verkle
