import Verif.Proofs.Storage
import Verif.Props.Pol
import Mathlib.Data.Set.Card

/-!
# What a liability set keeps in its database (C117)
-/

set_option linter.unusedSectionVars false

namespace PoL.Props
open Spec Pol Verkle Sparse

variable {G1 G2 GT : Type} [AddCommGroup G1] [Module Zr G1] [AddCommGroup G2] [Module Zr G2]
  [AddCommGroup GT] [Module Zr GT] [DecidableEq G1] [DecidableEq GT]

theorem byPath_lengths {id2Path : Str → Option (List ℕ)} {F L : ℕ} {hist : List (Str × ℤ)} (h : ValidIds id2Path F L hist) :
    (∀ e ∈ byPath id2Path hist, e.1.length = L) ∧ ∀ e ∈ byPath id2Path hist, ∀ x ∈ e.1, x < F := by
  constructor <;>
  · intro e he
    obtain ⟨e', he', rfl⟩ := List.mem_map.1 he
    obtain ⟨p, h1, h2, h3⟩ := h e' he'
    simp only [h1, Option.getD_some]
    first | exact h2 | exact h3

/-- C117, first part: whatever was in the database before, the keys of the vertices above the leaves on the paths written hold
vertices, and every other key holds what it held. -/
theorem C117_keys {E : Curve G1 G2 GT} (hE : E.Lawful) {env : Env} (henv : env.Lawful) {α : Zr} {F L : ℕ}
    {ls ls' : LiabilitySet G1 G2 GT} (h : NewSet E α F L ls) (hist : List (Str × ℤ))
    (hids : ValidIds ls.tree.id2Path F L hist) (hr : ls.sets E env hist = some ls') :
    (∀ q ∈ storedPaths (byPath ls.tree.id2Path hist), ∃ x, Verkle.Vertex.fromBytes E (ls'.s.db (keyOf q)) = some x) ∧
    ∀ k, (∀ q ∈ storedPaths (byPath ls.tree.id2Path hist), k ≠ keyOf q) → ls'.s.db k = ls.s.db k := by
  have hL := h.pp.depth
  obtain ⟨-, t, s, ht, rfl⟩ := (sets_iff E env hist ls ls').1 hr
  have hiff := storedPaths_iff (byPath_lengths hids).1
  constructor
  · intro q hq
    rw [hiff] at hq
    obtain ⟨x, hx, -⟩ := stored_shape hE henv h.tree.bound.le h.tree.pp h.tree.fanOut h.tree.root (by omega) hids ht hq.1 hq.2
    exact ⟨x, hx⟩
  · intro k hk
    exact puts_footprint hE henv h.tree.root hids ht k fun q hl hq => hk q ((hiff q).2 ⟨hl, hq⟩)

/-- C117, second part: a set that started with an empty database has one value for each vertex above the leaves; in a tree
of depth `L` with `n` identifiers under different paths these are from `L` to `1 + n (L - 1)`. -/
theorem C117_count {E : Curve G1 G2 GT} (hE : E.Lawful) {env : Env} (henv : env.Lawful) {α : Zr} {F L : ℕ}
    {ls ls' : LiabilitySet G1 G2 GT} (h : NewSet E α F L ls) (h0 : ∀ k, ls.s.db k = []) (hist : List (Str × ℤ))
    (hids : ValidIds ls.tree.id2Path F L hist) (hne : hist ≠ []) (hr : ls.sets E env hist = some ls') :
    {k | ls'.s.db k ≠ []}.ncard = (storedPaths (byPath ls.tree.id2Path hist)).card ∧
    L ≤ {k | ls'.s.db k ≠ []}.ncard ∧
    {k | ls'.s.db k ≠ []}.ncard ≤ 1 + ((byPath ls.tree.id2Path hist).map Prod.fst).toFinset.card * (L - 1) := by
  obtain ⟨h1, h2⟩ := C117_keys hE henv h hist hids hr
  have hset : {k | ls'.s.db k ≠ []} = ((storedPaths (byPath ls.tree.id2Path hist)).image keyOf : Finset Str) := by
    ext k
    simp only [Set.mem_ofPred_eq, Finset.coe_image, Set.mem_image, Finset.mem_coe]
    constructor
    · intro hk
      by_contra hc
      push Not at hc
      exact hk ((h2 k fun q hq e => hc q hq e.symm).trans (h0 k))
    · rintro ⟨q, hq, rfl⟩ hc
      obtain ⟨x, hx⟩ := h1 q hq
      rw [hc, fromBytes_nil] at hx
      cases hx
  have hcard : {k | ls'.s.db k ≠ []}.ncard = (storedPaths (byPath ls.tree.id2Path hist)).card := by
    rw [hset, Set.ncard_coe_finset, Finset.card_image_of_injective _ fun a b hab => keyOf_injective hab]
  rw [hcard]
  exact ⟨rfl, storedPaths_card (byPath_lengths hids).1 (by simpa [byPath] using hne)⟩

/-- C117, third part: the size of the value is given by the number of children of the vertex and the layer it is in. -/
theorem C117_value_size {E : Curve G1 G2 GT} (hE : E.Lawful) {env : Env} (henv : env.Lawful) {α : Zr} {F L : ℕ}
    {ls ls' : LiabilitySet G1 G2 GT} (h : NewSet E α F L ls) (h0 : ∀ k, ls.s.db k = []) (hist : List (Str × ℤ))
    (hids : ValidIds ls.tree.id2Path F L hist) (hr : ls.sets E env hist = some ls') (g : ℕ)
    (hg : ∀ p, (E.g1Bytes p).length = g) (q : List ℕ) (hq : q ∈ storedPaths (byPath ls.tree.id2Path hist)) :
    (ls'.s.db (keyOf q)).length
      = vertexSize g (childCount (byPath ls.tree.id2Path hist) q) (decide (q.length + 1 = L)) := by
  have hL := h.pp.depth
  obtain ⟨-, t, s, ht, rfl⟩ := (sets_iff E env hist ls ls').1 hr
  obtain ⟨b1, b2⟩ := byPath_lengths hids
  rw [storedPaths_iff b1] at hq
  obtain ⟨x, hx, hv, hleaf, hinner⟩ :=
    stored_shape hE henv h.tree.bound.le h.tree.pp h.tree.fanOut h.tree.root (by omega) hids ht hq.1 hq.2
  show (s.db (keyOf q)).length = _
  rcases encoded_puts ht (keyOf q) with he | ⟨y, n, he⟩
  · rw [he, h0, fromBytes_nil] at hx
    cases hx
  · rw [he, fromBytes_bytes hE y _ _ (henv.digests_mem n _) (henv.values_mem n _) (henv.digests_nodup n _)
      (henv.values_nodup n _), Option.some.injEq] at hx
    subst hx
    have hF : F ≤ 65536 := by have := h.tree.bound; omega
    have c1 := childCount_eq b1 b2 hF hq.1 (env.orderValues n y.values) (henv.values_nodup n _) fun k => by
      rw [henv.values_mem, hv]
    rw [he, bytes_length, c1, hg, vertexSize]
    by_cases hl : q.length + 1 = L
    · obtain ⟨d1, d2⟩ := hleaf hl
      have : env.orderDigests n y.digests = [] := by
        rw [List.eq_nil_iff_forall_not_mem]
        intro k hk
        rw [henv.digests_mem, d1] at hk
        cases hk
      rw [this, d2, decide_eq_true hl]
      rfl
    · obtain ⟨d1, d2⟩ := hinner hl
      have c2 := childCount_eq b1 b2 hF hq.1 (env.orderDigests n y.digests) (henv.digests_nodup n _) fun k => by
        rw [henv.digests_mem, d1]
      obtain ⟨W, hW⟩ := Option.isSome_iff_exists.1 d2
      rw [c2, hW, decide_eq_false hl]
      simp [hg]

/-- C117, fourth part: the keys in use and the sizes of their values tell which identifiers were set and nothing about the
amounts, the number and the order of the writes, or the random values. -/
theorem C117_shape_only {E : Curve G1 G2 GT} (hE : E.Lawful) {env env' : Env} (henv : env.Lawful) (henv' : env'.Lawful)
    {α α' : Zr} {F L : ℕ} {ls₁ ls₁' ls₂ ls₂' : LiabilitySet G1 G2 GT} (h₁ : NewSet E α F L ls₁) (h₂ : NewSet E α' F L ls₂)
    (h0₁ : ∀ k, ls₁.s.db k = []) (h0₂ : ∀ k, ls₂.s.db k = []) (hp : ls₁.tree.id2Path = ls₂.tree.id2Path)
    (hist₁ hist₂ : List (Str × ℤ)) (hids₁ : ValidIds ls₁.tree.id2Path F L hist₁) (hids₂ : ValidIds ls₂.tree.id2Path F L hist₂)
    (hr₁ : ls₁.sets E env hist₁ = some ls₁') (hr₂ : ls₂.sets E env' hist₂ = some ls₂')
    (hsame : ∀ id, id ∈ hist₁.map Prod.fst ↔ id ∈ hist₂.map Prod.fst)
    (hg : ∀ p q, (E.g1Bytes p).length = (E.g1Bytes q).length) (k : Str) :
    (ls₁'.s.db k).length = (ls₂'.s.db k).length := by
  have hset : ((byPath ls₁.tree.id2Path hist₁).map Prod.fst).toFinset = ((byPath ls₂.tree.id2Path hist₂).map Prod.fst).toFinset := by
    have hfst : ∀ (f : Str → Option (List ℕ)) (l : List (Str × ℤ)),
        (byPath f l).map Prod.fst = (l.map Prod.fst).map fun id => (f id).getD [] := by
      intro f l; simp [byPath]
    ext p
    rw [hfst, hfst, hp]
    simp only [List.mem_toFinset, List.mem_map (l := List.map Prod.fst _)]
    simp only [hsame]
  have hs : storedPaths (byPath ls₁.tree.id2Path hist₁) = storedPaths (byPath ls₂.tree.id2Path hist₂) := by
    unfold storedPaths; rw [hset]
  have hc : ∀ q, childCount (byPath ls₁.tree.id2Path hist₁) q = childCount (byPath ls₂.tree.id2Path hist₂) q := by
    intro q; unfold childCount; rw [hset]
  by_cases hk : ∃ q ∈ storedPaths (byPath ls₁.tree.id2Path hist₁), k = keyOf q
  · obtain ⟨q, hq, rfl⟩ := hk
    rw [C117_value_size hE henv h₁ h0₁ hist₁ hids₁ hr₁ (E.g1Bytes 0).length (fun p => hg p 0) q hq,
      C117_value_size hE henv' h₂ h0₂ hist₂ hids₂ hr₂ (E.g1Bytes 0).length (fun p => hg p 0) q (hs ▸ hq), hc]
  · push Not at hk
    rw [(C117_keys hE henv h₁ hist₁ hids₁ hr₁).2 k hk, (C117_keys hE henv' h₂ hist₂ hids₂ hr₂).2 k (hs ▸ hk), h0₁, h0₂]

/-- For `toyHist` these are 5 values; the one for the vertex over `010` and `012` has 191 bytes. -/
example : ∃ ls ls' : LiabilitySet Zr Zr Zr, NewSet toyCurve 2 3 3 ls ∧ ls.sets toyCurve toyEnv toyHist = some ls' ∧
    {k | ls'.s.db k ≠ []}.ncard = 5 ∧ (ls'.s.db (keyOf [0, 1])).length = 191 := by
  obtain ⟨pp, hpp⟩ := toy_fits
  obtain ⟨ls, hls⟩ : ∃ ls : LiabilitySet Zr Zr Zr, ls = ⟨toyTree, pp, [], ⟨fun _ => [], 0⟩⟩ := ⟨_, rfl⟩
  have h : NewSet toyCurve 2 3 3 ls := by rw [hls]; exact ⟨toyTree_new, hpp, rfl⟩
  have ht : ls.tree = toyTree := by rw [hls]
  have h0 : ∀ k, ls.s.db k = [] := by rw [hls]; exact fun _ => rfl
  have hids : ValidIds ls.tree.id2Path 3 3 toyHist := by rw [ht]; exact toyHist_valid
  obtain ⟨ls', hs⟩ := C43_sets_return toyCurve_lawful toyEnv_lawful h toyHist hids (by decide)
  refine ⟨ls, ls', h, hs, ?_, ?_⟩
  · rw [(C117_count toyCurve_lawful toyEnv_lawful h h0 toyHist hids (by decide) hs).1, ht]
    decide
  · rw [C117_value_size toyCurve_lawful toyEnv_lawful h h0 toyHist hids hs 32 (fun p => zrBytes_length p) [0, 1]
      (by rw [ht]; decide), ht, show childCount (byPath toyTree.id2Path toyHist) [0, 1] = 2 by decide]
    norm_num [vertexSize, mapSize, derSize]

end PoL.Props
