import Verif.Model.Recover
import Verif.Proofs.VerkleUpdate
import Verif.Proofs.Sparse

/-!
# What a panicking `Put` leaves behind: the callback
-/

set_option linter.unusedSectionVars false

namespace PoL.Verkle
open Sparse Spec

variable {G1 G2 GT : Type} [AddCommGroup G1] [Module Zr G1] [AddCommGroup G2] [Module Zr G2]
  [AddCommGroup GT] [Module Zr GT] [DecidableEq G1] [DecidableEq GT]

/-! ## The same results as in `Model/Verkle.lean` -/

theorem writeInnerR_iff (E : Curve G1 G2 GT) (PP : PP G1 G2 GT) (env : Env) (key : Str)
    (descendants : List (Option Data)) (index : ℕ) (s : State) (n : Data) (d : Option Data) (s' : State) :
    updateInnerLayerR E PP env key (some n) descendants index s = (some d, s') ↔
      updateInnerLayer E PP env key (some n) descendants index s = some (d, s') := by
  unfold updateInnerLayerR updateInnerLayer
  simp only [Option.bind_eq_bind, Option.pure_def]
  cases hv : fetchVertex E s.db (some (.key key)) with
  | none => simp [panicked]
  | some v =>
    simp only [Option.bind_some]
    unfold childOf
    simp only [Option.bind_eq_bind, Option.pure_def]
    cases hd : descendants[index]? with
    | none => simp [panickedWith]
    | some desc =>
      simp only [Option.bind_some]
      cases hf : fetchVertex E s.db desc with
      | none => simp [panickedWith]
      | some c =>
        simp only [Option.bind_some]
        cases hg : c.digest E with
        | none => simp [panickedWith]
        | some dg =>
          simp only [Option.bind_some]
          unfold writeInnerR
          dsimp only
          have hl : ∀ f : ℕ → Zr, ((List.range PP.N).map f).length = PP.N := by simp
          rw [hl]
          by_cases hN : PP.N < 2
          · rw [if_pos hN]
            simp only [panickedWith, Prod.mk.injEq, reduceCtorEq, false_and, false_iff]
            intro h
            obtain ⟨_, _, h⟩ := Option.bind_eq_some_iff.1 h
            rw [if_pos hN] at h
            cases h
          · rw [if_neg hN]
            cases hm : (List.range PP.N).mapM fun i =>
                if ((v.values.set (UInt16.ofNat index) c.sum) (UInt16.ofNat i)).isSome = true then
                  (v.digests.set (UInt16.ofNat index) dg) (UInt16.ofNat i)
                else some (intToZr 0) with
            | none =>
              simp only [Option.bind_none]
              split
              · simp [panickedWith]
              · simp [panickedWith]
            | some dd =>
              simp only [Option.bind_some, if_neg hN]
              split
              · rename_i h1
                rw [h1]
                simp [panickedWith]
              · rename_i V h1
                rw [h1]
                simp only [Option.bind_some]
                split
                · rename_i h2
                  rw [h2]
                  simp [panickedWith]
                · rename_i W h2
                  rw [h2]
                  simp [returned]

theorem createInnerR_iff (E : Curve G1 G2 GT) (PP : PP G1 G2 GT) (env : Env) (key : Str)
    (descendants : List (Option Data)) (index : ℕ) (s : State) (d : Option Data) (s' : State) :
    updateInnerLayerR E PP env key none descendants index s = (some d, s') ↔
      updateInnerLayer E PP env key none descendants index s = some (d, s') := by
  unfold updateInnerLayerR updateInnerLayer
  simp only [Option.bind_eq_bind, Option.pure_def]
  cases innerLoop E s.db descendants 0 ⟨intToZr 0, .empty, .empty, [], []⟩ with
  | none => simp [panicked]
  | some a =>
    simp only [Option.bind_some]
    cases PP.commit (a.m ++ [a.sum] ++ [env.rand s.tick]) with
    | none => simp [panicked]
    | some V =>
      simp only [Option.bind_some]
      cases PP.commit (a.d ++ [intToZr 0] ++ [intToZr 0]) with
      | none => simp [panicked]
      | some W => simp [returned]

theorem leafR_iff (E : Curve G1 G2 GT) (PP : PP G1 G2 GT) (env : Env) (key : Str) (node : Option Data)
    (descendants : List (Option Data)) (index : ℕ) (s : State) (d : Option Data) (s' : State) :
    updateLayerAboveLeavesR E PP env key node descendants index s = (some d, s') ↔
      updateLayerAboveLeaves E PP env key node descendants index s = some (d, s') := by
  unfold updateLayerAboveLeavesR updateLayerAboveLeaves
  simp only [Option.bind_eq_bind, Option.pure_def]
  cases node with
  | none =>
    dsimp only
    cases leafLoop descendants 0 (intToZr 0, .empty, []) with
    | none => simp [panicked]
    | some a =>
      obtain ⟨a1, a2, a3⟩ := a
      simp only [Option.bind_some]
      cases PP.commit (a3 ++ [a1] ++ [env.rand s.tick]) with
      | none => simp [panicked]
      | some V => simp [returned]
  | some n =>
    dsimp only
    cases fetchVertex E s.db (some (.key key)) with
    | none => simp [panicked]
    | some v =>
      simp only [Option.bind_some]
      rcases hd : descendants[index]? with _ | (_ | x)
      · simp [panickedWith]
      · simp [panickedWith]
      · simp only [Option.join_some, Option.bind_some]
        cases x.int64 with
        | none => simp [panickedWith]
        | some n =>
          simp only [Option.bind_some]
          unfold writeLeafR
          dsimp only
          split
          · rename_i h1
            rw [h1]
            simp [panickedWith]
          · rename_i V h1
            rw [h1]
            simp only [Option.bind_some]
            split
            · rename_i h2
              rw [h2]
              simp [panickedWith]
            · rename_i V' h2
              rw [h2]
              simp [returned]

/-- The callback returns in both models in the same cases, with the same result. -/
theorem updateR_iff (E : Curve G1 G2 GT) (PP : PP G1 G2 GT) (env : Env) (key : Str) (node : Option Data)
    (descendants : List (Option Data)) (leaves : Bool) (index : ℕ) (s : State) (d : Option Data) (s' : State) :
    updateInnerVertexR E PP env key node descendants leaves index s = (some d, s') ↔
      updateInnerVertex E PP env key node descendants leaves index s = some (d, s') := by
  unfold updateInnerVertexR updateInnerVertex
  cases leaves with
  | true => exact leafR_iff ..
  | false =>
    cases node with
    | none => exact createInnerR_iff E PP env key descendants index s d s'
    | some n => exact writeInnerR_iff E PP env key descendants index s n d s'

/-! ## What the callback writes -/

theorem updateR_footprint (E : Curve G1 G2 GT) (PP : PP G1 G2 GT) (env : Env) (key : Str) (node : Option Data)
    (descendants : List (Option Data)) (leaves : Bool) (index : ℕ) (s : State) (k : Str) (hk : k ≠ key) :
    (updateInnerVertexR E PP env key node descendants leaves index s).2.db k = s.db k := by
  have h := fun v : Vertex G1 => store_db E env key v s k hk
  unfold updateInnerVertexR updateLayerAboveLeavesR updateInnerLayerR writeLeafR writeInnerR
  dsimp only
  repeat' split
  all_goals first | rfl | exact h _

theorem updateR_result (E : Curve G1 G2 GT) (PP : PP G1 G2 GT) (env : Env) (key : Str) (node : Option Data)
    (descendants : List (Option Data)) (leaves : Bool) (index : ℕ) (s : State) :
    (updateInnerVertexR E PP env key node descendants leaves index s).1 = none ∨
      (updateInnerVertexR E PP env key node descendants leaves index s).1 = some (some (.key key)) := by
  unfold updateInnerVertexR updateLayerAboveLeavesR updateInnerLayerR writeLeafR writeInnerR
  dsimp only
  repeat' split
  all_goals first | exact Or.inl rfl | exact Or.inr rfl

/-- A vertex with data whose key is not in the database: the callback panics and writes nothing. -/
theorem updateR_missing (E : Curve G1 G2 GT) (PP : PP G1 G2 GT) (env : Env) (key : Str) (n : Data)
    (descendants : List (Option Data)) (leaves : Bool) (index : ℕ) (s : State) (h : load E s.db key = none) :
    updateInnerVertexR E PP env key (some n) descendants leaves index s = panicked s := by
  unfold updateInnerVertexR updateLayerAboveLeavesR updateInnerLayerR
  rw [← fetch_key] at h
  rw [h]
  split <;> rfl

theorem leafR_old (E : Curve G1 G2 GT) (PP : PP G1 G2 GT) (env : Env) (key : Str) (n : Data)
    (descendants : List (Option Data)) (index : ℕ) (s : State) (v : Vertex G1) (h : load E s.db key = some v) :
    ∃ v', (updateLayerAboveLeavesR E PP env key (some n) descendants index s).2 = store E env key v' s ∧
      v'.digests = v.digests ∧ (∀ k, (v.values k).isSome → (v'.values k).isSome) ∧
      ((updateLayerAboveLeavesR E PP env key (some n) descendants index s).1.isSome →
        (v'.values (UInt16.ofNat index)).isSome) := by
  have hset : ∀ x k, (v.values k).isSome → ((v.values.set (UInt16.ofNat index) x) k).isSome := by
    intro x k hk
    unfold ZrMap.set
    split <;> simp [hk]
  have hself : ∀ x, ((v.values.set (UInt16.ofNat index) x) (UInt16.ofNat index)).isSome := by
    intro x; simp [ZrMap.set]
  rw [← fetch_key] at h
  unfold updateLayerAboveLeavesR writeLeafR
  rw [h]
  dsimp only
  split
  · exact ⟨v, rfl, rfl, fun _ h => h, fun h => by cases h⟩
  · split
    · exact ⟨_, rfl, rfl, fun _ h => h, fun h => by cases h⟩
    · split
      · exact ⟨_, rfl, rfl, hset _, fun h => by cases h⟩
      · exact ⟨_, rfl, rfl, hset _, fun _ => hself _⟩

theorem mapM_some_mem {α β : Type} (f : α → Option β) : ∀ (l : List α) (r : List β), l.mapM f = some r →
    ∀ a ∈ l, (f a).isSome
  | [], _, _, a, ha => by cases ha
  | x :: t, r, h, a, ha => by
    rw [List.mapM_cons] at h
    obtain ⟨y, hy, h⟩ := Option.bind_eq_some_iff.1 h
    obtain ⟨ys, hys, -⟩ := Option.bind_eq_some_iff.1 h
    rcases List.mem_cons.1 ha with rfl | ha
    · rw [hy]; rfl
    · exact mapM_some_mem f t ys hys a ha

theorem innerR_old (E : Curve G1 G2 GT) (PP : PP G1 G2 GT) (env : Env) (key : Str) (n : Data)
    (descendants : List (Option Data)) (index : ℕ) (s : State) (v : Vertex G1) (h : load E s.db key = some v) :
    ∃ v', (updateInnerLayerR E PP env key (some n) descendants index s).2 = store E env key v' s ∧
      (∀ k, k ≠ UInt16.ofNat index → v'.digests k = v.digests k) ∧
      (∀ k, (v.values k).isSome → (v'.values k).isSome) ∧
      ((updateInnerLayerR E PP env key (some n) descendants index s).1.isSome →
        ∀ i < PP.N, (v'.values (UInt16.ofNat i)).isSome → (v'.digests (UInt16.ofNat i)).isSome) := by
  have hset : ∀ x k, (v.values k).isSome → ((v.values.set (UInt16.ofNat index) x) k).isSome := by
    intro x k hk
    unfold ZrMap.set
    split <;> simp [hk]
  have hdig : ∀ x k, k ≠ UInt16.ofNat index → (v.digests.set (UInt16.ofNat index) x) k = v.digests k := by
    intro x k hk
    unfold ZrMap.set
    rw [if_neg hk]
  rw [← fetch_key] at h
  unfold updateInnerLayerR writeInnerR
  rw [h]
  dsimp only
  split
  · exact ⟨v, rfl, fun _ _ => rfl, fun _ h => h, fun h => by cases h⟩
  · split
    · exact ⟨_, rfl, hdig _, hset _, fun h => by cases h⟩
    · split
      · exact ⟨_, rfl, hdig _, hset _, fun h => by cases h⟩
      · split
        · exact ⟨_, rfl, hdig _, hset _, fun h => by cases h⟩
        · rename_i W hW
          refine ⟨_, rfl, hdig _, hset _, fun _ i hi hv => ?_⟩
          obtain ⟨d, hd, -⟩ := Option.bind_eq_some_iff.1 hW
          have := mapM_some_mem _ _ _ hd i (List.mem_range.2 hi)
          rwa [if_pos hv] at this

theorem innerLoop_digests (E : Curve G1 G2 GT) (db : Db) (k : UInt16) : ∀ (l : List (Option Data)) (i : ℕ)
    (a a' : InnerAcc), innerLoop E db l i a = some a' →
    (∀ j d, l[j]? = some (some d) → UInt16.ofNat (i + j) ≠ k) → a'.digests k = a.digests k
  | [], _, a, a', h, _ => by
    simp only [innerLoop, Option.some.injEq] at h
    rw [h]
  | none :: t, i, a, a', h, hn => by
    rw [innerLoop] at h
    have := innerLoop_digests E db k t (i + 1) _ a' h fun j d hj => by
      have := hn (j + 1) d (by simpa using hj)
      rwa [show i + 1 + j = i + (j + 1) by omega]
    rw [this]
  | some desc :: t, i, a, a', h, hn => by
    rw [innerLoop] at h
    obtain ⟨c, -, h⟩ := Option.bind_eq_some_iff.1 h
    obtain ⟨dg, -, h⟩ := Option.bind_eq_some_iff.1 h
    have := innerLoop_digests E db k t (i + 1) _ a' h fun j d hj => by
      have := hn (j + 1) d (by simpa using hj)
      rwa [show i + 1 + j = i + (j + 1) by omega]
    rw [this]
    have h0 := hn 0 desc (by simp)
    simp only [ZrMap.set]
    rw [if_neg (fun hc => h0 (by rw [hc]; rfl))]

theorem leafLoop_values : ∀ (l : List (Option Data)) (i : ℕ) (a a' : Zr × ZrMap × List Zr),
    leafLoop l i a = some a' → (∀ k, (a.2.1 k).isSome → (a'.2.1 k).isSome) ∧
      ∀ j d, l[j]? = some (some d) → (a'.2.1 (UInt16.ofNat (i + j))).isSome
  | [], _, a, a', h => by
    simp only [leafLoop, Option.some.injEq] at h
    rw [h]
    exact ⟨fun _ h => h, fun j d hj => by simp at hj⟩
  | none :: t, i, a, a', h => by
    obtain ⟨a1, a2, a3⟩ := a
    rw [leafLoop] at h
    obtain ⟨h1, h2⟩ := leafLoop_values t (i + 1) _ a' h
    refine ⟨h1, fun j d hj => ?_⟩
    cases j with
    | zero => simp at hj
    | succ j =>
      rw [show i + (j + 1) = i + 1 + j by omega]
      exact h2 j d (by simpa using hj)
  | some desc :: t, i, a, a', h => by
    obtain ⟨a1, a2, a3⟩ := a
    rw [leafLoop] at h
    obtain ⟨n, -, h⟩ := Option.bind_eq_some_iff.1 h
    obtain ⟨h1, h2⟩ := leafLoop_values t (i + 1) _ a' h
    refine ⟨fun k hk => h1 k ?_, fun j d hj => ?_⟩
    · simp only [ZrMap.set]
      split
      · rfl
      · exact hk
    · cases j with
      | zero => exact h1 _ (by simp [ZrMap.set])
      | succ j =>
        rw [show i + (j + 1) = i + 1 + j by omega]
        exact h2 j d (by simpa using hj)

theorem leafR_new (E : Curve G1 G2 GT) (PP : PP G1 G2 GT) (env : Env) (key : Str)
    (descendants : List (Option Data)) (index : ℕ) (s : State) :
    updateLayerAboveLeavesR E PP env key none descendants index s = panicked s ∨
    ∃ v', updateLayerAboveLeavesR E PP env key none descendants index s = returned E env key v' s ∧
      (∀ k, v'.digests k = none) ∧
      ∀ j d, descendants[j]? = some (some d) → (v'.values (UInt16.ofNat j)).isSome := by
  unfold updateLayerAboveLeavesR
  dsimp only
  split
  · exact Or.inl rfl
  · rename_i a ha
    split
    · exact Or.inl rfl
    · refine Or.inr ⟨_, rfl, fun _ => rfl, fun j d hj => ?_⟩
      have := (leafLoop_values descendants 0 _ a ha).2 j d hj
      rwa [Nat.zero_add] at this

theorem innerR_new (E : Curve G1 G2 GT) (PP : PP G1 G2 GT) (env : Env) (key : Str)
    (descendants : List (Option Data)) (index : ℕ) (s : State) :
    updateInnerLayerR E PP env key none descendants index s = panicked s ∨
    ∃ v', updateInnerLayerR E PP env key none descendants index s = returned E env key v' s ∧
      ∀ k, (∀ j d, descendants[j]? = some (some d) → UInt16.ofNat j ≠ k) → v'.digests k = none := by
  unfold updateInnerLayerR
  dsimp only
  split
  · exact Or.inl rfl
  · rename_i a ha
    split
    · refine Or.inr ⟨_, rfl, fun k hk => ?_⟩
      exact innerLoop_digests E s.db k descendants 0 _ a ha fun j d hj => by
        rw [Nat.zero_add]; exact hk j d hj
    · exact Or.inl rfl

end PoL.Verkle
