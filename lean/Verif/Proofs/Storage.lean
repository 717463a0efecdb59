import Verif.Spec.Storage
import Verif.Proofs.VerkleMore
import Verif.Proofs.PolSet
import Verif.Proofs.Lost

/-! What is in the database after a history of writes. -/

set_option linter.unusedSectionVars false

namespace PoL.Verkle
open PoL.PP Sparse Spec

variable {G1 G2 GT : Type} [AddCommGroup G1] [Module Zr G1] [AddCommGroup G2] [Module Zr G2]
  [AddCommGroup GT] [Module Zr GT] [DecidableEq G1] [DecidableEq GT]

theorem tlv_length (tag : UInt8) (c : Bytes) : (Asn1.tlv tag c).length = derSize c.length := by
  unfold Asn1.tlv Asn1.encLen derSize
  split_ifs
  · simp
  · simp [Asn1.minBytes]; omega

theorem encodeMap_length (m : ZrMap) (o : List UInt16) :
    (Asn1.sequence ((encodeMap m o).flatMap Asn1.encKV)).length = mapSize o.length := by
  rw [Asn1.sequence, tlv_length, mapSize]
  refine congrArg derSize ?_
  induction o with
  | nil => rfl
  | cons k o ih =>
    simp only [encodeMap, List.map_cons, List.flatMap_cons, List.length_append, List.length_cons] at ih ⊢
    rw [ih, Asn1.encKV, Asn1.sequence, tlv_length, List.length_append, Asn1.octets, Asn1.octets, tlv_length, tlv_length]
    simp only [zrBytes, natToBE_length]
    ring

theorem bytes_length (E : Curve G1 G2 GT) (v : Vertex G1) (od ov : List UInt16) :
    (v.bytes E od ov).length = derSize (derSize 32 + mapSize ov.length + mapSize od.length + derSize 32
      + derSize (E.g1Bytes v.V).length + derSize ((v.W.map E.g1Bytes).getD []).length) := by
  unfold Vertex.bytes Asn1.marshal
  rw [Asn1.sequence, tlv_length]
  refine congrArg derSize ?_
  simp only [List.length_append, encodeMap_length, Asn1.octets, tlv_length]
  simp only [zrBytes, natToBE_length]

/-- The value at `k` is what it was at the start or the encoding of a vertex. -/
def Encoded (E : Curve G1 G2 GT) (env : Env) (db0 db : Db) : Prop :=
  ∀ k, db k = db0 k ∨ ∃ (x : Vertex G1) (t : ℕ), db k = x.bytes E (env.orderDigests t x.digests) (env.orderValues t x.values)

theorem Encoded.putAt {E : Curve G1 G2 GT} {PP : PP G1 G2 GT} {env : Env} {F : ℕ} {data : Option Data} {path : List ℕ}
    {ps : Str} {v v' : Sparse.Vertex Data} {s s' : State} {db0 : Db} (h0 : Encoded E env db0 s.db)
    (h : Sparse.putAt F (updateInnerVertex E PP env) data path ps v s = some (v', s')) : Encoded E env db0 s'.db := by
  induction path generalizing ps v v' s s' with
  | nil =>
    obtain ⟨-, rfl⟩ := putAt_nil h
    exact h0
  | cons p rest ih =>
    obtain ⟨child', s1, d, h1, -, h3, rfl⟩ := putAt_cons h
    have h1 := ih h0 h1
    obtain ⟨x, rfl, -⟩ := update_blinding h3
    intro k
    by_cases hk : k = v.key
    · refine .inr ⟨x, s1.tick, ?_⟩
      subst hk
      simp [store, Db.put]
    · rw [store_db E env _ x s1 k hk]
      exact h1 k

theorem encoded_puts {E : Curve G1 G2 GT} {env : Env} {t t' : Tree G1 G2 GT} {hist : List (Str × ℤ)} {s s' : State}
    (h : t.puts E env hist s = some (t', s')) : Encoded E env s.db s'.db := by
  induction hist using List.reverseRecOn generalizing t' s' with
  | nil =>
    rw [vputs_nil, Option.some.injEq, Prod.mk.injEq] at h
    rw [← h.2]
    exact fun _ => .inl rfl
  | append_singleton hist e ih =>
    rw [vputs_concat] at h
    obtain ⟨⟨t1, s1⟩, h1, h2⟩ := Option.bind_eq_some_iff.1 h
    have h1 := ih h1
    unfold Tree.put at h2
    obtain ⟨⟨t3, s4⟩, h5, h6⟩ := obind_elim h2
    simp only [Option.pure_def, Option.some.injEq, Prod.mk.injEq] at h6
    obtain ⟨-, rfl⟩ := h6
    obtain ⟨path, root', -, hput, -⟩ := put_some h5
    exact h1.putAt hput

/-- The vertices stored: their values are those of the children, the digests likewise above the layer over the leaves. -/
theorem stored_shape {E : Curve G1 G2 GT} (hE : E.Lawful) {env : Env} (henv : env.Lawful) {α : Zr} {F L : ℕ}
    (hF : F + 2 ≤ 65536) {t t' : Tree G1 G2 GT} (hPP : t.PP = newPublicParams E α (F + 2))
    (hfan : t.fanOut = F) (hroot : t.root = none) (hL : 1 ≤ L) {hist : List (Str × ℤ)} {s s' : State}
    (hids : ValidIds t.id2Path F L hist) (h : t.puts E env hist s = some (t', s')) {q : List ℕ} (hqL : q.length < L)
    (hq : touched (byPath t.id2Path hist) q) :
    ∃ x : Vertex G1, Vertex.fromBytes E (s'.db (keyOf q)) = some x ∧
      (∀ k : UInt16, (x.values k).isSome ↔ touched (byPath t.id2Path hist) (q ++ [k.toNat])) ∧
      (q.length + 1 = L → x.digests = .empty ∧ x.W = none) ∧
      (q.length + 1 ≠ L → (∀ k : UInt16, (x.digests k).isSome ↔ touched (byPath t.id2Path hist) (q ++ [k.toNat])) ∧
        x.W.isSome) := by
  obtain ⟨t1, s1, h1, -, -, hgood, -⟩ := puts_good hE henv α F hF t hPP hfan hroot L hL hist s hids
  rw [h, Option.some.injEq, Prod.mk.injEq] at h1
  obtain ⟨rfl, rfl⟩ := h1
  obtain ⟨v, u, hv, hu⟩ := find_touched hroot hids h q hq
  have hhe : hist ≠ [] := by
    rintro rfl
    obtain ⟨e, he, -⟩ := hq
    simp [byPath] at he
  obtain ⟨v', hv', hg⟩ := hgood hhe
  rw [hv, Option.some.injEq] at hv'
  subst hv'
  have hgu := hg.find q hqL.le u hu
  obtain ⟨n, hn⟩ : ∃ n, L - q.length = n + 1 := ⟨L - q.length - 1, by omega⟩
  rw [hn, List.nil_append] at hgu
  obtain ⟨-, -, g3, g4, g5⟩ := hgu
  have hfind : ∀ i, Sparse.find (q ++ [i]) v = Sparse.descGet u.desc i := by
    intro i
    rw [Sparse.find_append, hu, Option.bind_some, Sparse.find_cons]
    cases Sparse.descGet u.desc i <;> rfl
  have hch : ∀ i, i < F ∧ (Sparse.descGet u.desc i).isSome ↔ touched (byPath t.id2Path hist) (q ++ [i]) := by
    intro i
    rw [← hfind]
    constructor
    · rintro ⟨-, hi⟩
      obtain ⟨w, hw⟩ := Option.isSome_iff_exists.1 hi
      exact find_iff_touched hroot hids h _ v w hv hw
    · intro ht
      obtain ⟨v2, w, hv2, hw⟩ := find_touched hroot hids h _ ht
      rw [hv, Option.some.injEq] at hv2
      subst hv2
      rw [hw]
      rw [hfind] at hw
      exact ⟨(g3 _ _ hw).1, rfl⟩
  have hmap : ∀ (f : ℕ → Option Zr), (∀ i, (f i).isSome = (Sparse.descGet u.desc i).isSome) → ∀ k : UInt16,
      (mapBelow F f k).isSome ↔ touched (byPath t.id2Path hist) (q ++ [k.toNat]) := by
    intro f hf k
    rw [← hch, ← hf]
    unfold mapBelow
    split_ifs with hk <;> simp [hk]
  by_cases h0 : n = 0
  · obtain ⟨bf, V, hl, -⟩ := g4 h0
    exact ⟨_, load_fromBytes hl, hmap _ fun i => by simp [childVals], fun _ => ⟨rfl, rfl⟩, fun hc => absurd (by omega) hc⟩
  · obtain ⟨bf, hl⟩ := g5 h0
    exact ⟨_, load_fromBytes hl, hmap _ fun i => by simp [childVals], fun hc => absurd hc (by omega),
      fun _ => ⟨hmap _ fun i => by simp [childDigs], rfl⟩⟩

/-- Keys that are not those of vertices on the paths written keep their values. -/
theorem puts_footprint {E : Curve G1 G2 GT} (hE : E.Lawful) {env : Env} (henv : env.Lawful) {t t' : Tree G1 G2 GT}
    (hroot : t.root = none) {F L : ℕ} {hist : List (Str × ℤ)} {s s' : State} (hids : ValidIds t.id2Path F L hist)
    (h : t.puts E env hist s = some (t', s')) (k : Str)
    (hk : ∀ q, q.length < L → touched (byPath t.id2Path hist) q → k ≠ keyOf q) : s'.db k = s.db k := by
  induction hist using List.reverseRecOn generalizing t' s' with
  | nil =>
    rw [vputs_nil, Option.some.injEq, Prod.mk.injEq] at h
    rw [← h.2]
  | append_singleton hist e ih =>
    rw [vputs_concat] at h
    obtain ⟨⟨t1, s1⟩, h1, h2⟩ := Option.bind_eq_some_iff.1 h
    obtain ⟨p, hp, hpl, -⟩ := hids e (by simp)
    rw [put_footprint hE henv hroot h1 h2 p hp k fun q hq hl => ?_]
    · refine ih (fun e he => hids e (by simp [he])) h1 fun q hl ⟨e', he', hq⟩ => hk q hl ⟨e', ?_, hq⟩
      simp only [byPath, List.map_append, List.mem_append] at he' ⊢
      exact .inl he'
    · refine hk q (by omega) ⟨(p, e.2), ?_, hq⟩
      simp [byPath, hp]

theorem storedPaths_iff {h : List (List ℕ × ℤ)} {L : ℕ} (hL : ∀ e ∈ h, e.1.length = L) (q : List ℕ) :
    q ∈ storedPaths h ↔ q.length < L ∧ touched h q := by
  simp only [storedPaths, Finset.mem_biUnion, List.mem_toFinset, List.mem_map, Finset.mem_image, Finset.mem_range]
  constructor
  · rintro ⟨p, ⟨e, he, rfl⟩, i, hi, rfl⟩
    rw [hL e he] at hi
    exact ⟨by simp; omega, e, he, List.take_prefix _ _⟩
  · rintro ⟨hl, e, he, hq⟩
    exact ⟨e.1, ⟨e, he, rfl⟩, q.length, by rw [hL e he]; exact hl, (List.prefix_iff_eq_take.1 hq).symm⟩

theorem storedPaths_card {h : List (List ℕ × ℤ)} {L : ℕ} (hL : ∀ e ∈ h, e.1.length = L) (hne : h ≠ []) :
    L ≤ (storedPaths h).card ∧ (storedPaths h).card ≤ 1 + (h.map Prod.fst).toFinset.card * (L - 1) := by
  constructor
  · obtain ⟨e, he⟩ := List.exists_mem_of_ne_nil _ hne
    have h1 : ((Finset.range L).image e.1.take).card = L := by
      rw [Finset.card_image_of_injOn, Finset.card_range]
      intro i hi j hj hij
      have := congrArg List.length hij
      simp only [Finset.coe_range, Set.mem_Iio] at hi hj
      have := hL e he
      simp at *
      omega
    rw [← h1]
    refine Finset.card_le_card fun q hq => ?_
    rw [storedPaths_iff hL]
    obtain ⟨i, hi, rfl⟩ := Finset.mem_image.1 hq
    exact ⟨by rw [Finset.mem_range] at hi; simp; omega, e, he, List.take_prefix _ _⟩
  · have hsub : storedPaths h ⊆ insert [] ((h.map Prod.fst).toFinset.biUnion fun p =>
        (Finset.Ico 1 L).image p.take) := by
      intro q hq
      rw [storedPaths_iff hL] at hq
      obtain ⟨hl, e, he, hqe⟩ := hq
      rw [Finset.mem_insert]
      by_cases hq0 : q = []
      · exact .inl hq0
      · refine .inr (Finset.mem_biUnion.2 ⟨e.1, List.mem_toFinset.2 (List.mem_map.2 ⟨e, he, rfl⟩), Finset.mem_image.2
          ⟨q.length, ?_, (List.prefix_iff_eq_take.1 hqe).symm⟩⟩)
        rw [Finset.mem_Ico]
        exact ⟨List.length_pos_iff.2 hq0, hl⟩
    refine (Finset.card_le_card hsub).trans ((Finset.card_insert_le _ _).trans ?_)
    have := Finset.card_biUnion_le_card_mul (h.map Prod.fst).toFinset (fun p => (Finset.Ico 1 L).image p.take) (L - 1)
      fun p _ => Finset.card_image_le.trans (by simp)
    omega

theorem childCount_eq {h : List (List ℕ × ℤ)} {F L : ℕ} (hL : ∀ e ∈ h, e.1.length = L) (hF : ∀ e ∈ h, ∀ x ∈ e.1, x < F)
    (hF' : F ≤ 65536) {q : List ℕ} (hq : q.length < L) (o : List UInt16) (hn : o.Nodup)
    (ho : ∀ k, k ∈ o ↔ touched h (q ++ [k.toNat])) : o.length = childCount h q := by
  rw [← List.toFinset_card_of_nodup hn, ← Finset.card_image_of_injective o.toFinset (f := UInt16.toNat)
    fun a b hab => UInt16.toNat_inj.1 hab, childCount]
  refine congrArg Finset.card ?_
  ext i
  simp only [Finset.mem_image, List.mem_toFinset, ho, Finset.mem_filter, List.mem_map]
  constructor
  · rintro ⟨k, ⟨e, he, r, hr⟩, rfl⟩
    refine ⟨e.1, ⟨⟨e, he, rfl⟩, ⟨k.toNat :: r, by rw [← hr]; simp⟩⟩, ?_⟩
    rw [← hr]
    simp
  · rintro ⟨p, ⟨⟨e, he, rfl⟩, r, hr⟩, rfl⟩
    cases r with
    | nil =>
      have := hL e he
      rw [← hr] at this
      simp at this
      omega
    | cons a r =>
      have hi : e.1.getD q.length 0 = a := by rw [← hr]; simp
      have ha : a < F := hF e he a (by rw [← hr]; simp)
      refine ⟨UInt16.ofNat a, ⟨e, he, r, ?_⟩, ?_⟩
      · rw [toNat_ofNat16 (by omega), ← hr]; simp
      · rw [toNat_ofNat16 (by omega), hi]

end PoL.Verkle
