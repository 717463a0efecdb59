import Verif.Model.Verkle
import Verif.Proofs.Asn1
import Verif.Proofs.Sparse
import Mathlib.Data.List.Perm.Subperm

/-! Vertices: encoding and the database. -/

set_option linter.unusedSectionVars false

namespace PoL.Verkle

variable {G1 G2 GT : Type} [AddCommGroup G1] [Module Zr G1] [AddCommGroup G2] [Module Zr G2]
  [AddCommGroup GT] [Module Zr GT]

theorem uint16_natToBE (k : UInt16) : uint16 (natToBE 2 k.toNat) = some k := by
  have h1 : beToNat (natToBE 2 k.toNat) = k.toNat := beToNat_natToBE 2 _ (by
    have := k.toNat_lt; norm_num at this ⊢; exact this)
  have h2 : natToBE 2 k.toNat = [UInt8.ofNat (k.toNat / 256 % 256), UInt8.ofNat (k.toNat % 256)] := rfl
  rw [h2] at h1 ⊢
  rw [uint16, h1, UInt16.ofNat_toNat]

theorem decode_fold (m : ZrMap) (order : List UInt16) (acc : ZrMap) :
    (encodeMap m order).foldlM (fun m kv => do return ZrMap.set m (← uint16 kv.K) (newZrFromBytes kv.V)) acc
      = some (fun k => if k ∈ order then some ((m k).getD 0) else acc k) := by
  induction order generalizing acc with
  | nil => simp [encodeMap]
  | cons a t ih =>
    have : encodeMap m (a :: t) = ⟨natToBE 2 a.toNat, zrBytes ((m a).getD 0)⟩ :: encodeMap m t := rfl
    rw [this, List.foldlM_cons]
    simp only [uint16_natToBE, newZrFromBytes_zrBytes, Option.pure_def, Option.bind_eq_bind, Option.bind_some]
    have ih := ih (ZrMap.set acc a ((m a).getD 0))
    simp only [Option.pure_def, Option.bind_eq_bind] at ih
    rw [ih]
    congr 1
    funext k
    unfold ZrMap.set
    by_cases hk : k ∈ t
    · simp [hk]
    · by_cases hka : k = a
      · subst hka; simp [hk]
      · simp [hk, hka]

theorem decodeMap_encodeMap (m : ZrMap) (order : List UInt16) (h : ∀ k, k ∈ order ↔ (m k).isSome) :
    decodeMap (encodeMap m order) = some m := by
  unfold decodeMap
  rw [decode_fold]
  congr 1
  funext k
  by_cases hk : k ∈ order
  · rw [if_pos hk]
    obtain ⟨x, hx⟩ := Option.isSome_iff_exists.1 ((h k).1 hk)
    simp [hx]
  · rw [if_neg hk]
    have : ¬ (m k).isSome := fun hc => hk ((h k).2 hc)
    simp only [Bool.not_eq_true, Option.isSome_eq_false_iff, Option.isNone_iff_eq_none] at this
    rw [this]; rfl

theorem nodup_uint16_length (l : List UInt16) (h : l.Nodup) : l.length ≤ 65536 := by
  have h1 : (l.map UInt16.toNat).Nodup := h.map (fun a b hab => UInt16.toNat_inj.1 hab)
  have h2 : l.map UInt16.toNat ⊆ List.range 65536 := by
    intro x hx
    obtain ⟨a, -, rfl⟩ := List.mem_map.1 hx
    exact List.mem_range.2 a.toNat_lt
  have := (h1.subperm h2).length_le
  simpa using this

theorem encodeMap_small (m : ZrMap) (order : List UInt16) : ∀ kv ∈ encodeMap m order, kv.Small := by
  intro kv hkv
  obtain ⟨k, -, rfl⟩ := List.mem_map.1 hkv
  unfold Asn1.KV.Small zrBytes
  simp only [natToBE_length]
  omega

theorem fromBytes_bytes {E : Curve G1 G2 GT} (hE : E.Lawful) (v : Vertex G1) (od ov : List UInt16)
    (hd : ∀ k, k ∈ od ↔ (v.digests k).isSome) (hv : ∀ k, k ∈ ov ↔ (v.values k).isSome)
    (hdn : od.Nodup) (hvn : ov.Nodup) : Vertex.fromBytes E (v.bytes E od ov) = some v := by
  unfold Vertex.fromBytes Vertex.bytes
  rw [Asn1.unmarshal_marshal]
  rotate_left
  · simp [zrBytes, natToBE_length]
  · simp [zrBytes, natToBE_length]
  · exact hE.g1_len _
  · cases v.W with
    | none => simp
    | some w => exact hE.g1_len _
  · exact encodeMap_small _ _
  · exact encodeMap_small _ _
  · simpa [encodeMap] using nodup_uint16_length _ hvn
  · simpa [encodeMap] using nodup_uint16_length _ hdn
  simp only [Option.pure_def, Option.bind_eq_bind, Option.bind_some, hE.g1_roundtrip,
    decodeMap_encodeMap _ _ hd, decodeMap_encodeMap _ _ hv, newZrFromBytes_zrBytes]
  cases hW : v.W with
  | none => cases v; simp_all
  | some w =>
    have := hE.g1_nonempty w
    have h2 : (E.g1Bytes w).length ≠ 0 := by simpa using this
    simp only [Option.map_some, Option.getD_some, if_pos h2, hE.g1_roundtrip, Option.bind_some]
    cases v; simp_all

theorem bytes_ne_nil (E : Curve G1 G2 GT) (v : Vertex G1) (od ov : List UInt16) : v.bytes E od ov ≠ [] :=
  Asn1.marshal_ne_nil _

/-! ## Keys -/

theorem toDigits_no_dot (p : ℕ) : '.' ∉ Nat.toDigits 10 p := by
  intro h
  have := Nat.isDigit_of_mem_toDigits (by norm_num) (by norm_num) h
  revert this
  decide

theorem split_at_dot {a b c d : List Char} (ha : '.' ∉ a) (hb : '.' ∉ b)
    (hc : c = [] ∨ ∃ t, c = '.' :: t) (hd : d = [] ∨ ∃ t, d = '.' :: t) (h : a ++ c = b ++ d) :
    a = b ∧ c = d := by
  induction a generalizing b with
  | nil =>
    cases b with
    | nil => exact ⟨rfl, h⟩
    | cons x b =>
      rcases hc with rfl | ⟨t, rfl⟩
      · simp at h
      · simp at h hb; exact absurd h.1 hb.1
  | cons y a ih =>
    cases b with
    | nil =>
      rcases hd with rfl | ⟨t, rfl⟩
      · simp at h
      · simp at h ha; exact absurd h.1.symm ha.1
    | cons x b =>
      simp only [List.cons_append, List.cons.injEq] at h
      obtain ⟨rfl, h⟩ := h
      obtain ⟨h1, h2⟩ := ih (by simp at ha; exact ha.2) (by simp at hb; exact hb.2) h
      exact ⟨by rw [h1], h2⟩

theorem keyOf_cons (p : ℕ) (t : List ℕ) : Spec.keyOf (p :: t) = '.' :: (Nat.toDigits 10 p ++ Spec.keyOf t) := by
  simp [Spec.keyOf]

theorem keyOf_start (q : List ℕ) : Spec.keyOf q = [] ∨ ∃ t, Spec.keyOf q = '.' :: t := by
  cases q with
  | nil => exact .inl rfl
  | cons p t => exact .inr ⟨_, keyOf_cons p t⟩

theorem keyOf_injective : Function.Injective Spec.keyOf := by
  intro q
  induction q with
  | nil =>
    intro r h
    cases r with
    | nil => rfl
    | cons p t => rw [keyOf_cons] at h; simp [Spec.keyOf] at h
  | cons a q ih =>
    intro r h
    cases r with
    | nil => rw [keyOf_cons] at h; simp [Spec.keyOf] at h
    | cons p t =>
      rw [keyOf_cons, keyOf_cons, List.cons.injEq] at h
      obtain ⟨h1, h2⟩ := split_at_dot (toDigits_no_dot a) (toDigits_no_dot p) (keyOf_start q) (keyOf_start t) h.2
      have : a = p := by
        have h3 := Nat.ofDigitChars_toDigits (b := 10) (n := a) (by norm_num) (by norm_num)
        have h4 := Nat.ofDigitChars_toDigits (b := 10) (n := p) (by norm_num) (by norm_num)
        rw [← h3, h1, h4]
      rw [this, ih h2]

end PoL.Verkle
