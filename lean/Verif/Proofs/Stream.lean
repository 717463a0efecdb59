import Verif.Spec.Stream
import Verif.Proofs.Asn1
import Verif.Proofs.VerkleMore

/-! # The stream of records written by `Serialize` -/

namespace PoL

/-! ## Strings as bytes -/

theorem byteArray_toList_loop (b : ByteArray) (n : ℕ) : ∀ i r, b.size - i = n →
    ByteArray.toList.loop b i r = r.reverse ++ b.data.toList.drop i := by
  induction n with
  | zero =>
    intro i r h
    rw [ByteArray.toList.loop, if_neg (by omega), List.drop_of_length_le (by
      rw [Array.length_toList]; change b.data.size - i = 0 at h; omega)]
    simp
  | succ n ih =>
    intro i r h
    have hi : i < b.data.toList.length := by
      rw [Array.length_toList]; change b.data.size - i = n + 1 at h; omega
    rw [ByteArray.toList.loop, if_pos (by omega), ih _ _ (by omega), List.drop_eq_getElem_cons hi]
    have : b.get! i = b.data.toList[i] := by
      simp at hi
      simp [ByteArray.get!, hi]
    simp [this]

theorem strBytes_ofList (l : List Char) : strBytes (String.ofList l) = l.flatMap String.utf8EncodeChar := by
  unfold strBytes
  rw [ByteArray.toList, byteArray_toList_loop _ _ _ _ rfl]
  simp [String.toUTF8, List.utf8Encode]

theorem strBytes_inj {a b : List Char} (h : strBytes (String.ofList a) = strBytes (String.ofList b)) : a = b := by
  rw [strBytes_ofList, strBytes_ofList] at h
  have : a.utf8Encode = b.utf8Encode := by
    unfold List.utf8Encode
    rw [h]
  rw [← String.toByteArray_ofList, ← String.toByteArray_ofList, String.toByteArray_inj, String.ofList_inj] at this
  exact this

theorem strBytes_length_le (l : List Char) : (strBytes (String.ofList l)).length ≤ 4 * l.length := by
  rw [strBytes_ofList]
  induction l with
  | nil => simp
  | cons a l ih =>
    have := a.utf8Size_le_four
    simp only [List.flatMap_cons, List.length_append, String.length_utf8EncodeChar, List.length_cons]
    omega

theorem keyOf_length_le (F : ℕ) (hF : F ≤ 65536) (q : List ℕ) (h : ∀ x ∈ q, x < F) : (Spec.keyOf q).length ≤ 6 * q.length := by
  induction q with
  | nil => simp [Spec.keyOf]
  | cons a q ih =>
    have ih := ih fun x hx => h x (by simp [hx])
    have ha : (Nat.toDigits 10 a).length ≤ 5 :=
      (Nat.length_toDigits_le_iff (by norm_num) (by norm_num)).2 (by have := h a (by simp); omega)
    unfold Spec.keyOf at ih ⊢
    simp only [List.flatMap_cons, List.length_append, List.length_cons]
    omega

end PoL

namespace PoL.Verkle
open Spec Asn1 Sparse

/-- One record. -/
def record (p : Str) (b : Bytes) : Bytes := header (rawVertexBytes p b).length ++ rawVertexBytes p b

theorem rawVertexBytes_length_le (p : Str) (b : Bytes) (h : (strBytes (String.ofList p)).length + b.length < 1073741824) :
    (rawVertexBytes p b).length < 2147483648 := by
  unfold rawVertexBytes Asn1.sequence printable octets
  have h1 := tlv_length_le 0x13 (strBytes (String.ofList p)) (by omega)
  have h2 := tlv_length_le 0x04 b (by omega)
  have h3 := tlv_length_le 0x30 (tlv 0x13 (strBytes (String.ofList p)) ++ tlv 0x04 b) (by simp; omega)
  simp only [List.length_append] at h3
  omega

theorem readRecord_record (p : Str) (b rest : Bytes) (h : (strBytes (String.ofList p)).length + b.length < 1073741824) :
    readRecord (record p b ++ rest) = some ((strBytes (String.ofList p), b), rest) := by
  have hl := rawVertexBytes_length_le p b h
  have h4 : (natToBE 4 ((rawVertexBytes p b).length % 4294967296)).length = 4 := natToBE_length _ _
  have hh : (header (rawVertexBytes p b).length).length = 32 := by
    unfold header
    rw [List.length_append, h4]; simp
  have ht : beToNat ((record p b ++ rest).take 4) = (rawVertexBytes p b).length := by
    unfold record header
    rw [List.append_assoc, List.append_assoc, List.take_left' h4, beToNat_natToBE _ _ (by omega), Nat.mod_eq_of_lt (by omega)]
  have hd : (record p b ++ rest).drop 32 = rawVertexBytes p b ++ rest := by
    unfold record
    rw [List.append_assoc, List.drop_left' hh]
  unfold readRecord
  rw [ht, hd, if_neg (by simp [record, hh]), if_neg (by simp), List.take_left, List.drop_left]
  unfold rawVertexBytes Asn1.sequence printable octets
  have hs : (tlv 0x13 (strBytes (String.ofList p)) ++ tlv 0x04 b).length < 2147483648 := by
    have h1 := tlv_length_le 0x13 (strBytes (String.ofList p)) (by omega)
    have h2 := tlv_length_le 0x04 b (by omega)
    rw [List.length_append]
    omega
  have e1 := readTlv_tlv 0x30 (tlv 0x13 (strBytes (String.ofList p)) ++ tlv 0x04 b) [] hs
  rw [List.append_nil] at e1
  have e2 := readTlv_tlv 0x13 (strBytes (String.ofList p)) (tlv 0x04 b) (by omega)
  have e3 := readTlv_tlv 0x04 b [] (by omega)
  rw [List.append_nil] at e3
  rw [e1, Option.bind_some]
  dsimp only
  rw [e2, Option.bind_some]
  dsimp only
  rw [e3, Option.bind_some]
  simp

theorem readStream_records (rs : List (Str × Bytes))
    (h : ∀ r ∈ rs, (strBytes (String.ofList r.1)).length + r.2.length < 1073741824) (n : ℕ) (hn : rs.length ≤ n) :
    readStream n (rs.flatMap fun r => record r.1 r.2) = some (rs.map fun r => (strBytes (String.ofList r.1), r.2)) := by
  induction rs generalizing n with
  | nil => cases n <;> rfl
  | cons r rs ih =>
    cases n with
    | zero => simp at hn
    | succ n =>
      have e := readRecord_record r.1 r.2 (rs.flatMap fun r => record r.1 r.2) (h r (by simp))
      have hne : record r.1 r.2 ++ rs.flatMap (fun r => record r.1 r.2) ≠ [] := by
        have h4 : (natToBE 4 ((rawVertexBytes r.1 r.2).length % 4294967296)).length = 4 := natToBE_length _ _
        intro hc
        have := congrArg List.length hc
        simp [record, header, h4] at this
      rw [List.flatMap_cons, readStream, e, Option.bind_some]
      · dsimp only
        rw [ih (fun r hr => h r (by simp [hr])) n (by simpa using hn)]
        rfl
      · exact hne

/-! ## The records of a tree -/

theorem descGet_mem_iff {α : Type} (l : List (ℕ × α)) (h : (l.map Prod.fst).Nodup) (p : ℕ) (u : α) :
    descGet l p = some u ↔ (p, u) ∈ l := by
  induction l with
  | nil => simp [descGet]
  | cons a l ih =>
    obtain ⟨k, w⟩ := a
    rw [List.map_cons, List.nodup_cons] at h
    rw [descGet, List.mem_cons]
    split_ifs with hk
    · subst hk
      simp only [Option.some.injEq, Prod.mk.injEq, true_and]
      constructor
      · rintro rfl; exact Or.inl rfl
      · rintro (rfl | hm)
        · rfl
        · exact absurd (List.mem_map.2 ⟨_, hm, rfl⟩) h.1
    · rw [ih h.2]
      constructor
      · exact Or.inr
      · rintro (he | hm)
        · exact absurd (Prod.mk.inj he).1.symm hk
        · exact hm

theorem serialize_records {D : Type} (f : Option D → Bytes) {v : Sparse.Vertex D} (hv : IsMap v) : ∀ pre : List ℕ,
    ∃ rs : List (List ℕ × Option D), serializeVertex f (keyOf pre) v = rs.flatMap (fun r => record (keyOf r.1) (f r.2)) ∧
      (rs.map Prod.fst).Nodup ∧ ∀ q d, (q, d) ∈ rs ↔ ∃ r, q = pre ++ r ∧ (find r v).map Sparse.Vertex.data = some d := by
  induction hv with
  | @mk k d ds nodup below ih =>
    intro pre
    have ih' : ∀ e ∈ ds, ∃ rs : List (List ℕ × Option D),
        serializeVertex f (childKey (keyOf pre) e.1) e.2 = rs.flatMap (fun r => record (keyOf r.1) (f r.2)) ∧
        (rs.map Prod.fst).Nodup ∧
        ∀ q d, (q, d) ∈ rs ↔ ∃ r, q = pre ++ e.1 :: r ∧ (find r e.2).map Sparse.Vertex.data = some d := by
      intro e he
      obtain ⟨rs, h1, h2, h3⟩ := ih e he (pre ++ [e.1])
      refine ⟨rs, by rw [childKey_keyOf, h1], h2, fun q d => ?_⟩
      rw [h3]
      simp [List.append_assoc]
    choose! g g1 g2 g3 using ih'
    refine ⟨(pre, d) :: ds.flatMap g, ?_, ?_, ?_⟩
    · rw [serializeVertex_mk, List.flatMap_cons, List.flatMap_assoc]
      congr 1
      exact List.flatMap_congr g1
    · rw [List.map_cons, List.nodup_cons, List.map_flatMap]
      constructor
      · intro hc
        obtain ⟨e, he, hc⟩ := List.mem_flatMap.1 hc
        obtain ⟨⟨q, d'⟩, hr, hq⟩ := List.mem_map.1 hc
        obtain ⟨r, h1, -⟩ := (g3 e he q d').1 hr
        dsimp only at hq
        rw [hq] at h1
        have := congrArg List.length h1
        simp at this
      · rw [List.nodup_flatMap]
        refine ⟨g2, ?_⟩
        have hp : ds.Pairwise (fun a b => a.1 ≠ b.1) := List.pairwise_map.1 nodup
        refine hp.imp_of_mem fun {a b} ha hb hab => ?_
        intro q hqa hqb
        obtain ⟨⟨q1, d1⟩, hr1, rfl⟩ := List.mem_map.1 hqa
        obtain ⟨⟨q2, d2⟩, hr2, hq2⟩ := List.mem_map.1 hqb
        obtain ⟨r1, h1, -⟩ := (g3 a ha q1 d1).1 hr1
        obtain ⟨r2, h2, -⟩ := (g3 b hb q2 d2).1 hr2
        dsimp only at hq2
        rw [hq2, h1] at h2
        have := List.append_cancel_left h2
        exact hab (List.cons.inj this).1
    · intro q d'
      rw [List.mem_cons, List.mem_flatMap]
      constructor
      · rintro (he | ⟨e, he, hm⟩)
        · obtain ⟨rfl, rfl⟩ := Prod.mk.inj he
          exact ⟨[], by simp, by simp⟩
        · obtain ⟨r, h1, h2⟩ := (g3 e he q d').1 hm
          refine ⟨e.1 :: r, h1, ?_⟩
          rw [find_cons, Vertex.desc_mk, (descGet_mem_iff ds nodup e.1 e.2).2 he]
          exact h2
      · rintro ⟨r, rfl, h⟩
        cases r with
        | nil =>
          left
          simp at h
          simp [h]
        | cons p r =>
          right
          rw [find_cons, Vertex.desc_mk] at h
          cases hg : descGet ds p with
          | none => simp [hg] at h
          | some u =>
            rw [hg] at h
            have hm := (descGet_mem_iff ds nodup p u).1 hg
            exact ⟨(p, u), hm, (g3 _ hm _ _).2 ⟨r, rfl, h⟩⟩

/-! ## Trees built by `Put` -/

theorem descSet_keys {α : Type} (l : List (ℕ × α)) (p : ℕ) (u : α) (h : (l.map Prod.fst).Nodup) :
    ((descSet l p u).map Prod.fst).Nodup ∧ ∀ x, x ∈ (descSet l p u).map Prod.fst → x = p ∨ x ∈ l.map Prod.fst := by
  induction l with
  | nil => simp [descSet]
  | cons a l ih =>
    obtain ⟨k, w⟩ := a
    rw [List.map_cons, List.nodup_cons] at h
    rw [descSet]
    split_ifs with hk
    · subst hk
      refine ⟨by simpa using h, fun x hx => ?_⟩
      right
      simpa using hx
    · obtain ⟨i1, i2⟩ := ih h.2
      refine ⟨?_, fun x hx => ?_⟩
      · rw [List.map_cons, List.nodup_cons]
        refine ⟨fun hc => ?_, i1⟩
        rcases i2 _ hc with h1 | h1
        · exact hk h1
        · exact h.1 h1
      · rw [List.map_cons, List.mem_cons] at hx
        rcases hx with hx | hx
        · right; rw [hx]; simp
        · rcases i2 _ hx with h1 | h1
          · exact Or.inl h1
          · right; rw [List.map_cons]; exact List.mem_cons_of_mem _ h1

theorem isMap_iff {D : Type} (v : Sparse.Vertex D) : IsMap v ↔ (v.desc.map Prod.fst).Nodup ∧ ∀ e ∈ v.desc, IsMap e.2 := by
  constructor
  · rintro ⟨h1, h2⟩; exact ⟨h1, h2⟩
  · cases v; rintro ⟨h1, h2⟩; exact ⟨h1, h2⟩

theorem isMap_putAt {D σ : Type} {F : ℕ} {upd : Update D σ} {data : Option D} : ∀ {path : List ℕ} {ps : Str}
    {v v' : Sparse.Vertex D} {s s' : σ}, putAt F upd data path ps v s = some (v', s') → IsMap v → IsMap v' := by
  intro path
  induction path with
  | nil =>
    intro ps v v' s s' h hv
    obtain ⟨h1, h2⟩ := putAt_nil h
    rw [isMap_iff] at hv ⊢
    rw [h1]
    exact hv
  | cons p rest ih =>
    intro ps v v' s s' h hv
    obtain ⟨child', s1, d', h1, h2, h3, rfl⟩ := putAt_cons h
    rw [isMap_iff] at hv
    have hc : IsMap child' := by
      refine ih h1 ?_
      cases hg : descGet v.desc p with
      | none => exact .mk (by simp) (by simp)
      | some u => exact hv.2 _ ((descGet_mem_iff _ hv.1 _ _).1 hg)
    refine .mk (descSet_keys _ _ _ hv.1).1 fun e he => ?_
    rcases descSet_mem _ _ _ _ he with h | h
    · have hg := (descGet_mem_iff _ (descSet_keys _ p child' hv.1).1 e.1 e.2).2 he
      rw [descGet_descSet, if_pos h.symm, Option.some.injEq] at hg
      rw [← hg]; exact hc
    · exact hv.2 _ h

theorem isMap_puts {D σ : Type} {t0 : Sparse.Tree D σ} (h0 : t0.root = none) {s0 : σ} :
    ∀ hist t s, t0.puts hist s0 = some (t, s) → ∀ v, t.root = some v → IsMap v := by
  apply puts_induction (P := fun _ t _ => ∀ v, t.root = some v → IsMap v)
  · intro v hv; rw [h0] at hv; simp at hv
  · intro hist e t s1 t' s2 hrun ih hput v hv
    obtain ⟨path, root', hp, hroot, rfl⟩ := put_some hput
    obtain rfl := Option.some.inj hv
    refine isMap_putAt hroot ?_
    cases hr : t.root with
    | none => exact .mk (by simp) (by simp)
    | some w => exact ih w hr

/-- The vertices present are the prefixes of the paths written to. -/
theorem present_puts {D σ : Type} {t0 : Sparse.Tree D σ} (h0 : t0.root = none) {s0 : σ} (q : List ℕ) :
    ∀ hist t s, t0.puts hist s0 = some (t, s) →
      ((t.root.bind (find q)).isSome ↔ ∃ e ∈ hist, ∃ p, t0.id2Path e.1 = some p ∧ q <+: p) := by
  apply puts_induction (P := fun hist t _ =>
    ((t.root.bind (find q)).isSome ↔ ∃ e ∈ hist, ∃ p, t0.id2Path e.1 = some p ∧ q <+: p))
  · rw [h0]; simp
  · intro hist e t s1 t' s2 hrun ih hput
    obtain ⟨hid, -, -⟩ := puts_fields hist t s1 hrun
    obtain ⟨path, root', hp, hroot, rfl⟩ := put_some hput
    rw [hid] at hp
    rw [Option.bind_some]
    by_cases hq : q <+: path
    · constructor
      · intro _; exact ⟨e, by simp, path, hp, hq⟩
      · intro _
        rcases hq with ⟨r, rfl⟩
        have hs := find_putAt_self hroot
        rw [find_append] at hs
        cases hf : find q root' with
        | none => simp [hf] at hs
        | some u => rfl
    · have hoff := find_putAt_off hroot q hq
      have h2 : (find q root').isSome = (find q (t.root.getD (.mk [] none []))).isSome := by
        have := congrArg Option.isSome hoff
        simpa using this
      have h3 : (find q (t.root.getD (.mk [] none []))).isSome = (t.root.bind (find q)).isSome := by
        cases hr : t.root with
        | none =>
          rw [Option.getD_none, find_fresh _ _ (by rintro rfl; exact hq List.nil_prefix)]
          rfl
        | some v => rfl
      rw [h2, h3, ih]
      constructor
      · rintro ⟨e', he', p, h1, h2⟩; exact ⟨e', by simp [he'], p, h1, h2⟩
      · rintro ⟨e', he', p, h1, h2⟩
        rw [List.mem_append, List.mem_singleton] at he'
        rcases he' with he' | rfl
        · exact ⟨e', he', p, h1, h2⟩
        · rw [hp, Option.some.injEq] at h1
          subst h1
          exact absurd h2 hq

end PoL.Verkle
