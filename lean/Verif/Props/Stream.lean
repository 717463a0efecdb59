import Verif.Proofs.Stream
import Verif.Props.Verkle
import Verif.Props.Sparse

/-! # C77: the stream written by `Serialize` can be read back -/

set_option linter.unusedSectionVars false

namespace PoL.Props
open Spec Sparse Verkle

variable {D σ : Type}

/-- C77: take a tree built by `Put`s, visit its maps in any order (`v`), and encode the data with any function `f`.  A
reader of the stream finds one record for each prefix of a path written to, and no others: its name and the encoding of
its data.  Lengths are supposed to be below 2^30 (the reader's limit is 2^31). -/
theorem C77_stream_lists_tree (t0 t : Sparse.Tree D σ) (h0 : t0.root = none) (hist : List (Str × Option D)) (s s' : σ)
    (h : t0.puts hist s = some (t, s')) (root v : Sparse.Vertex D) (hroot : t.root = some root)
    (hv : SameContents root v) (hmap : IsMap v) (f : Option D → Bytes)
    (hlen : ∀ e ∈ hist, ∀ p, t0.id2Path e.1 = some p → ∀ q, q <+: p →
      (strBytes (String.ofList (keyOf q))).length + (f (dataAt t.root q)).length < 2 ^ 30) :
    ∃ rs : List (List ℕ), rs.Nodup ∧ (∀ q, q ∈ rs ↔ ∃ e ∈ hist, ∃ p, t0.id2Path e.1 = some p ∧ q <+: p) ∧
      readStream rs.length (serializeVertex f [] v)
        = some (rs.map fun q => (strBytes (String.ofList (keyOf q)), f (dataAt t.root q))) := by
  obtain ⟨rs, h1, h2, h3⟩ := serialize_records f hmap []
  have hfind : ∀ q, (find q v).map Vertex.data = (find q root).map Vertex.data := by
    intro q
    have := hv q
    cases hr : find q root with
    | none =>
      cases hw : find q v with
      | none => rfl
      | some u =>
        obtain ⟨vs, e, -⟩ := getAt_eq q v u hw
        rw [getAt_none q root hr, e] at this
        simp at this
    | some u =>
      obtain ⟨vs, e, -⟩ := getAt_eq q root u hr
      cases hw : find q v with
      | none =>
        rw [getAt_none q v hw, e] at this
        simp at this
      | some u' =>
        obtain ⟨vs', e', -⟩ := getAt_eq q v u' hw
        rw [e, e', Option.map_some, Option.map_some, Option.some.injEq] at this
        exact congrArg some this.symm
  have hmem : ∀ q d, (q, d) ∈ rs ↔ (find q root).map Vertex.data = some d := by
    intro q d
    rw [h3, ← hfind]
    simp
  have hdata : ∀ r ∈ rs, r.2 = dataAt t.root r.1 := by
    intro r hr
    have := (hmem r.1 r.2).1 hr
    rw [dataAt_eq, hroot, Option.getD_some]
    cases hf : find r.1 root with
    | none => simp [hf] at this
    | some u =>
      rw [hf, Option.map_some, Option.some.injEq] at this
      rw [Option.bind_some, this]
  have hpres := fun q => present_puts h0 q hist t s' h
  simp only [hroot, Option.bind_some] at hpres
  have hkeys : ∀ q, q ∈ rs.map Prod.fst ↔ ∃ e ∈ hist, ∃ p, t0.id2Path e.1 = some p ∧ q <+: p := by
    intro q
    rw [← hpres q]
    constructor
    · intro hq
      obtain ⟨r, hr, rfl⟩ := List.mem_map.1 hq
      have := (hmem r.1 r.2).1 hr
      cases hf : find r.1 root with
      | none => simp [hf] at this
      | some u => rfl
    · intro hq
      obtain ⟨u, hu⟩ := Option.isSome_iff_exists.1 hq
      exact List.mem_map.2 ⟨(q, u.data), (hmem _ _).2 (by rw [hu]; rfl), rfl⟩
  refine ⟨rs.map Prod.fst, h2, hkeys, ?_⟩
  have e1 : serializeVertex f [] v = (rs.map fun r => (keyOf r.1, f r.2)).flatMap fun r => record r.1 r.2 := by
    rw [List.flatMap_map]
    exact h1
  rw [e1, readStream_records]
  · rw [List.map_map, List.map_map, Option.some.injEq]
    apply List.map_congr_left
    intro r hr
    simp only [Function.comp_apply]
    rw [hdata r hr]
  · intro r hr
    obtain ⟨r', hr', rfl⟩ := List.mem_map.1 hr
    obtain ⟨e, he, p, hp, hq⟩ := (hkeys r'.1).1 (List.mem_map.2 ⟨r', hr', rfl⟩)
    have := hlen e he p hp r'.1 hq
    rw [← hdata r' hr'] at this
    norm_num at this
    exact this
  · simp

/-- Trees built by `Put`s are maps, so that C77 applies in particular to the order of the model. -/
theorem C77_trees_are_maps (t0 t : Sparse.Tree D σ) (h0 : t0.root = none) (hist : List (Str × Option D)) (s s' : σ)
    (h : t0.puts hist s = some (t, s')) (root : Sparse.Vertex D) (hroot : t.root = some root) :
    IsMap root ∧ SameContents root root := ⟨isMap_puts h0 hist t s' h root hroot, fun _ => rfl⟩

variable {G1 G2 GT : Type} [AddCommGroup G1] [Module Zr G1] [AddCommGroup G2] [Module Zr G2]
  [AddCommGroup GT] [Module Zr GT] [DecidableEq G1] [DecidableEq GT]

/-- C77 for the Verkle tree: the output of `Serialize` lists the names of all vertices, once each, with empty contents. -/
theorem C77_verkle_stream {E : Curve G1 G2 GT} {env : Env} {t t' : Verkle.Tree G1 G2 GT} (h0 : t.root = none) {F L : ℕ}
    (hF : F ≤ 65536) (hL : L ≤ 2 ^ 24) (hist : List (Str × ℤ)) (hne : hist ≠ []) (hids : ValidIds t.id2Path F L hist)
    {s s' : State} (h : t.puts E env hist s = some (t', s')) :
    ∃ (out : Bytes) (rs : List (List ℕ)), t'.serialize = some out ∧ rs.Nodup ∧
      (∀ q, q ∈ rs ↔ touched (byPath t.id2Path hist) q) ∧
      readStream rs.length out = some (rs.map fun q => (strBytes (String.ofList (keyOf q)), [])) := by
  rw [vputs_sparse] at h
  obtain ⟨⟨ts, s1⟩, h1, h2⟩ := Option.map_eq_some_iff.1 h
  simp only [Prod.mk.injEq] at h2
  obtain ⟨rfl, rfl⟩ := h2
  have h0' : (t.sparse E env).root = none := h0
  have hb : ∀ q, touched (byPath t.id2Path hist) q ↔
      ∃ e ∈ dataHist hist, ∃ p, (t.sparse E env).id2Path e.1 = some p ∧ q <+: p := by
    intro q
    constructor
    · rintro ⟨e, he, hq⟩
      obtain ⟨e', he', rfl⟩ := List.mem_map.1 he
      obtain ⟨p, hp, -⟩ := hids e' he'
      exact ⟨(e'.1, some (.amount e'.2)), List.mem_map.2 ⟨e', he', rfl⟩, p, hp, by simpa [hp] using hq⟩
    · rintro ⟨e, he, p, hp, hq⟩
      obtain ⟨e', he', rfl⟩ := List.mem_map.1 he
      have hp' : t.id2Path e'.1 = some p := hp
      exact ⟨_, List.mem_map.2 ⟨e', he', rfl⟩, by simpa [hp'] using hq⟩
  obtain ⟨root, hroot⟩ : ∃ root, ts.root = some root := by
    obtain ⟨e, he⟩ := List.exists_mem_of_ne_nil hist hne
    obtain ⟨p, hp, -⟩ := hids e he
    have := (present_puts h0' [] _ _ _ h1).2 ⟨(e.1, some (.amount e.2)), List.mem_map.2 ⟨e, he, rfl⟩, p, hp, List.nil_prefix⟩
    cases hr : ts.root with
    | none => simp [hr] at this
    | some r => exact ⟨r, rfl⟩
  have hf : ∀ d, vertexToBytes d = [] := by
    intro d
    cases d with
    | none => rfl
    | some d => cases d <;> rfl
  obtain ⟨hm, hs⟩ := C77_trees_are_maps _ _ h0' _ _ _ h1 root hroot
  obtain ⟨rs, r1, r2, r3⟩ := C77_stream_lists_tree _ _ h0' _ _ _ h1 root root hroot hs hm vertexToBytes (by
    intro e he p hp q hq
    obtain ⟨e', he', rfl⟩ := List.mem_map.1 he
    obtain ⟨p', hp', hl, hlt⟩ := hids e' he'
    obtain rfl : p' = p := Option.some.inj (hp'.symm.trans hp)
    have k1 := strBytes_length_le (keyOf q)
    have k2 := keyOf_length_le F hF q fun x hx => hlt x (hq.subset hx)
    have k3 := hq.length_le
    rw [hf, List.length_nil]
    norm_num at hL ⊢
    omega)
  refine ⟨serializeVertex vertexToBytes [] root, rs, ?_, r1, fun q => (r2 q).trans (hb q).symm, ?_⟩
  · unfold Tree.serialize
    rw [hroot]
    rfl
  · rw [r3, Option.some.injEq]
    apply List.map_congr_left
    intro q _
    rw [hf]

/-! ## The hypotheses can be met -/

/-- The tree of C34's example, with its data written as one byte: five vertices and the root. -/
example : ∃ (t : Sparse.Tree ℕ Unit) (root : Sparse.Vertex ℕ) (rs : List (List ℕ)),
    exampleTree.puts [(['a'], some 5), (['c'], some 7), (['a'], some 6), (['b'], some 1)] () = some (t, ()) ∧
    t.root = some root ∧ [0, 2] ∈ rs ∧ [2] ∉ rs ∧
    readStream rs.length (serializeVertex (fun d => [UInt8.ofNat (d.getD 0)]) [] root)
      = some (rs.map fun q => (strBytes (String.ofList (keyOf q)), [UInt8.ofNat ((dataAt t.root q).getD 0)])) := by
  obtain ⟨t, s, h⟩ := C34_puts_return exampleTree rfl (fun _ _ _ _ _ _ => rfl)
    [(['a'], some 5), (['c'], some 7), (['a'], some 6), (['b'], some 1)] () (by simp [exampleTree])
  have hp : ∀ id p, exampleTree.id2Path id = some p → p.length = 2 ∧ ∀ x ∈ p, x < 3 := by
    intro id p hp
    simp only [exampleTree] at hp
    split at hp <;> simp at hp <;> subst hp <;> decide
  obtain ⟨root, hroot⟩ : ∃ root, t.root = some root := by
    have := Option.some.inj h
    simp only [Prod.mk.injEq] at this
    rw [← this.1]
    exact ⟨_, rfl⟩
  obtain ⟨hm, hs⟩ := C77_trees_are_maps _ _ rfl _ _ _ h root hroot
  obtain ⟨rs, -, r2, r3⟩ := C77_stream_lists_tree exampleTree t rfl _ _ _ h root root hroot hs hm (fun d => [UInt8.ofNat (d.getD 0)]) (by
    intro e _ p he q hq
    have k0 := hp _ _ he
    have k1 := strBytes_length_le (keyOf q)
    have k2 := keyOf_length_le 3 (by norm_num) q fun x hx => k0.2 x (hq.subset hx)
    have k3 := hq.length_le
    rw [List.length_singleton]
    norm_num
    omega)
  refine ⟨t, root, rs, h, hroot, (r2 _).2 ⟨(['b'], some 1), by simp, [0, 2], rfl, List.prefix_rfl⟩, ?_, r3⟩
  rw [r2]
  rintro ⟨e, he, p, hp, hq⟩
  simp only [List.mem_cons, List.not_mem_nil, or_false] at he
  rcases he with rfl | rfl | rfl | rfl <;> simp [exampleTree] at hp <;> subst hp <;> revert hq <;> decide

example : ∃ (t' : Verkle.Tree Zr Zr Zr) (s' : State) (out : Bytes) (rs : List (List ℕ)), toyTree.puts toyCurve toyEnv toyHist ⟨fun _ => [], 0⟩ = some (t', s') ∧ t'.serialize = some out ∧
    readStream rs.length out = some (rs.map fun q => (strBytes (String.ofList (keyOf q)), [])) := by
  obtain ⟨t', s', h⟩ := C39_writes_return toyCurve_lawful toyEnv_lawful toyTree_new (L := 3) (by decide) toyHist ⟨fun _ => [], 0⟩ toyHist_valid
  obtain ⟨out, rs, h1, -, -, h2⟩ := C77_verkle_stream rfl (F := 3) (L := 3) (by norm_num) (by norm_num) toyHist (by decide) toyHist_valid h
  exact ⟨t', s', out, rs, h, h1, h2⟩

end PoL.Props
