import Verif.Proofs.RecoverLeft

/-!
# What a `Set`, panicking or not, does not change

Everything that could be read before along a path that neither begins nor continues the path written can be read
afterwards.
-/

set_option linter.unusedSectionVars false

namespace PoL.Pol
open Sparse Verkle

variable {G1 G2 GT : Type} [AddCommGroup G1] [Module Zr G1] [AddCommGroup G2] [Module Zr G2]
  [AddCommGroup GT] [Module Zr GT] [DecidableEq G1] [DecidableEq GT]

/-- The vertex can be fetched (`verkle/tree.go:206-213`). -/
def Fetched (E : Curve G1 G2 GT) (db : Db) (u : Sparse.Vertex Data) : Prop :=
  ∃ k x, u.data = some (.key k) ∧ Verkle.Vertex.fromBytes E (db k) = some x

/-- Whatever could be decoded can still be decoded. -/
def Keeps (E : Curve G1 G2 GT) (db db' : Db) : Prop :=
  ∀ k, (Verkle.Vertex.fromBytes E (db k)).isSome → (Verkle.Vertex.fromBytes E (db' k)).isSome

theorem Keeps.fetched {E : Curve G1 G2 GT} {db db' : Db} (h : Keeps E db db') {u : Sparse.Vertex Data}
    (hu : Fetched E db u) : Fetched E db' u := by
  obtain ⟨k, x, h1, h2⟩ := hu
  obtain ⟨y, hy⟩ := Option.isSome_iff_exists.1 (h k (by rw [h2]; rfl))
  exact ⟨k, y, h1, hy⟩

theorem mapM_fetched (E : Curve G1 G2 GT) (db : Db) (us : List (Sparse.Vertex Data)) :
    (∃ xs : List (Verkle.Vertex G1), us.mapM (fun u => do
      let key ← (← u.data).str
      Verkle.Vertex.fromBytes E (db key)) = some xs) ↔ ∀ u ∈ us, Fetched E db u := by
  constructor
  · rintro ⟨xs, h⟩ u hu
    have := mapM_some_mem _ us xs h u hu
    obtain ⟨x, hx⟩ := Option.isSome_iff_exists.1 this
    obtain ⟨d, hd, hx⟩ := Option.bind_eq_some_iff.1 hx
    obtain ⟨k, hk, hx⟩ := Option.bind_eq_some_iff.1 hx
    cases d with
    | amount n => simp [Data.str] at hk
    | key k' =>
      simp only [Data.str, Option.some.injEq] at hk
      subst hk
      exact ⟨_, x, hd, hx⟩
  · intro h
    induction us with
    | nil => exact ⟨[], rfl⟩
    | cons u t ih =>
      obtain ⟨xs, hxs⟩ := ih fun u hu => h u (by simp [hu])
      obtain ⟨k, x, h1, h2⟩ := h u (by simp)
      refine ⟨x :: xs, ?_⟩
      rw [List.mapM_cons]
      exact obind_step (obind_step h1 (obind_step (show Data.str (.key k) = some k from rfl) h2)) (obind_step hxs rfl)

theorem keeps_store {E : Curve G1 G2 GT} (hE : E.Lawful) {env : Env} (henv : env.Lawful) (key : Str)
    (v : Verkle.Vertex G1) (s : State) : Keeps E s.db (store E env key v s).db := by
  intro k hk
  by_cases h : k = key
  · subst h
    rw [load_fromBytes (load_store_self hE henv k v s)]; rfl
  · rw [store_db E env key v s k h]; exact hk

theorem updateR_keeps {E : Curve G1 G2 GT} (hE : E.Lawful) {env : Env} (henv : env.Lawful) (PP : PP G1 G2 GT) (key : Str)
    (node : Option Data) (descendants : List (Option Data)) (leaves : Bool) (index : ℕ) (s : State) :
    Keeps E s.db (updateInnerVertexR E PP env key node descendants leaves index s).2.db ∧
    ∀ d, (updateInnerVertexR E PP env key node descendants leaves index s).1 = some d → d = some (.key key) ∧
      ∃ x, Verkle.Vertex.fromBytes E ((updateInnerVertexR E PP env key node descendants leaves index s).2.db key) = some x := by
  have h1 : ∀ v : Verkle.Vertex G1, Keeps E s.db (store E env key v s).db := fun v => keeps_store hE henv key v s
  have h2 : ∀ v : Verkle.Vertex G1, ∃ x, Verkle.Vertex.fromBytes E ((store E env key v s).db key) = some x :=
    fun v => ⟨_, load_fromBytes (load_store_self hE henv key v s)⟩
  have h3 : Keeps E s.db s.db := fun _ h => h
  unfold updateInnerVertexR updateLayerAboveLeavesR updateInnerLayerR writeLeafR writeInnerR panicked panickedWith returned
  dsimp only
  repeat' split
  all_goals first
    | exact ⟨h1 _, fun d hd => ⟨(Option.some.inj hd).symm, h2 _⟩⟩
    | exact ⟨h1 _, fun d hd => by cases hd⟩
    | exact ⟨h3, fun d hd => by cases hd⟩

/-- The put along `p`, seen from the path `p'` that is neither a beginning nor a continuation of it. -/
theorem putAtR_kept {E : Curve G1 G2 GT} (hE : E.Lawful) {env : Env} (henv : env.Lawful) (PP : PP G1 G2 GT) (F : ℕ)
    (a : Option Data) (p : List ℕ) (ps : Str) (v : Sparse.Vertex Data) (s : State) :
    Keeps E s.db (putAtR F (updateInnerVertexR E PP env) a p ps v s).state.db ∧
    ∀ p' d us, ¬ p <+: p' → ¬ p' <+: p → getAt p' v = some (d, us) → (∀ u ∈ us, Fetched E s.db u) →
      ∃ us', getAt p' (putAtR F (updateInnerVertexR E PP env) a p ps v s).vertex = some (d, us') ∧
        ∀ u ∈ us', Fetched E (putAtR F (updateInnerVertexR E PP env) a p ps v s).state.db u := by
  induction p generalizing ps v s with
  | nil => exact ⟨fun _ h => h, fun p' d us h => absurd List.nil_prefix h⟩
  | cons c t ih =>
    rw [putAtR_cons]
    obtain ⟨ihk, ihg⟩ := ih (childKey ps c) ((descGet v.desc c).getD (.mk (childKey ps c) none [])) s
    set r := putAtR F (updateInnerVertexR E PP env) a t (childKey ps c)
      ((descGet v.desc c).getD (.mk (childKey ps c) none [])) s with hr
    have hdesc := (roundR_vertex F (updateInnerVertexR E PP env) v t.isEmpty c r).2
    -- the vertex itself and the database
    have hround : Keeps E r.state.db (roundR F (updateInnerVertexR E PP env) v t.isEmpty c r).state.db ∧
        (Fetched E r.state.db v → Fetched E (roundR F (updateInnerVertexR E PP env) v t.isEmpty c r).state.db
          (roundR F (updateInnerVertexR E PP env) v t.isEmpty c r).vertex) := by
      have hsame : ∀ {db db' : Db} {u : Sparse.Vertex Data}, Keeps E db db' → u.data = v.data → Fetched E db v →
          Fetched E db' u := by
        intro db db' u hk hd hf
        obtain ⟨k, x, h1, h2⟩ := hk.fetched hf
        exact ⟨k, x, by rw [hd]; exact h1, h2⟩
      rcases roundR_cases F (updateInnerVertexR E PP env) v t.isEmpty c r with
        ⟨-, h2, h3⟩ | ⟨-, raw, -, h2, ⟨-, -, h4⟩ | ⟨-, h4⟩⟩
      · rw [h3]
        exact ⟨fun _ h => h, hsame (fun _ h => h) h2⟩
      · rw [h2]
        obtain ⟨hk, -⟩ := updateR_keeps hE henv PP v.key v.data raw t.isEmpty c r.state
        exact ⟨hk, hsame hk h4⟩
      · rw [h2]
        obtain ⟨hk, hret⟩ := updateR_keeps hE henv PP v.key v.data raw t.isEmpty c r.state
        obtain ⟨hd, x, hx⟩ := hret _ h4
        exact ⟨hk, fun _ => ⟨v.key, x, hd, hx⟩⟩
    refine ⟨fun k hk => hround.1 k (ihk k hk), ?_⟩
    intro p' d us hp hp' hget hus
    cases p' with
    | nil => exact absurd List.nil_prefix hp'
    | cons c' t' =>
      rw [getAt] at hget
      cases hch : descGet v.desc c' with
      | none => simp [hch] at hget
      | some u =>
        cases hrec : getAt t' u with
        | none => simp [hch, hrec] at hget
        | some q =>
          obtain ⟨d', us1⟩ := q
          simp only [hch, hrec, Option.some.injEq, Prod.mk.injEq] at hget
          obtain ⟨rfl, rfl⟩ := hget
          have hv := hround.2 (ihk.fetched (hus v (by simp)))
          by_cases hc : c = c'
          · subst hc
            have hchild : (descGet v.desc c).getD (.mk (childKey ps c) none []) = u := by rw [hch]; rfl
            rw [hchild] at ihg
            obtain ⟨us', g1, g2⟩ := ihg t' d' us1
              (fun h => hp (by rw [List.cons_prefix_cons]; exact ⟨rfl, h⟩))
              (fun h => hp' (by rw [List.cons_prefix_cons]; exact ⟨rfl, h⟩)) hrec (fun w hw => hus w (by simp [hw]))
            refine ⟨(roundR F (updateInnerVertexR E PP env) v t.isEmpty c r).vertex :: us', ?_, ?_⟩
            · rw [getAt, hdesc, descGet_descSet, if_pos rfl]
              dsimp only
              rw [g1]
            · intro w hw
              rcases List.mem_cons.1 hw with rfl | hw
              · exact hv
              · exact hround.1.fetched (g2 w hw)
          · refine ⟨(roundR F (updateInnerVertexR E PP env) v t.isEmpty c r).vertex :: us1, ?_, ?_⟩
            · rw [getAt, hdesc, descGet_descSet, if_neg hc, hch]
              dsimp only
              rw [hrec]
            · intro w hw
              rcases List.mem_cons.1 hw with rfl | hw
              · exact hv
              · exact hround.1.fetched (ihk.fetched (hus w (by simp [hw])))

/-- `Get`, in terms of the walk. -/
theorem lget_iff (E : Curve G1 G2 GT) (env : Env) (ls : LiabilitySet G1 G2 GT) (id : Str) (p : List ℕ)
    (v : Sparse.Vertex Data) (hid : ls.tree.id2Path id = some p) (hv : ls.tree.root = some v) (r : Option ℤ) :
    ls.get E env id = some r ↔ (r = none ∧ getAt p v = none) ∨
      ∃ n us, r = some n ∧ getAt p v = some (some (.amount n), us) ∧ ∀ u ∈ us, Fetched E ls.s.db u := by
  have hs : (ls.tree.sparse E env).get id = some (getAt p v) := by
    unfold Sparse.Tree.get
    refine obind_step (show (ls.tree.sparse E env).id2Path id = some p from hid) ?_
    rw [show (ls.tree.sparse E env).root = some v from hv]
    rfl
  constructor
  · intro h
    unfold LiabilitySet.get at h
    obtain ⟨x, hx, h⟩ := Option.bind_eq_some_iff.1 h
    unfold Verkle.Tree.get at hx
    obtain ⟨y, hy, hx⟩ := Option.bind_eq_some_iff.1 hx
    rw [hs, Option.some.injEq] at hy
    cases y with
    | none =>
      simp only [Option.pure_def, Option.some.injEq] at hx h
      subst hx
      exact Or.inl ⟨h.symm, hy⟩
    | some q =>
      obtain ⟨d, us⟩ := q
      obtain ⟨xs, hxs, hx⟩ := Option.bind_eq_some_iff.1 hx
      obtain ⟨d', hd', hx⟩ := Option.bind_eq_some_iff.1 hx
      obtain ⟨n, hn, hx⟩ := Option.bind_eq_some_iff.1 hx
      simp only [Option.pure_def, Option.some.injEq] at hx h
      subst hx
      cases d' with
      | key k => simp [Data.int64] at hn
      | amount m =>
        simp only [Data.int64, Option.some.injEq] at hn
        subst hn
        refine Or.inr ⟨m, us, h.symm, by rw [hy, hd'], (mapM_fetched E _ us).1 ⟨xs, hxs⟩⟩
  · rintro (⟨rfl, h⟩ | ⟨n, us, rfl, h, hus⟩)
    · exact lget_none E env ls id p v hid hv h
    · obtain ⟨xs, hxs⟩ := (mapM_fetched E _ us).2 hus
      exact lget_some E env ls id p v hid hv n us h xs hxs

end PoL.Pol
