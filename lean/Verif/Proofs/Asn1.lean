import Verif.Model.Asn1
import Verif.Spec.Toy
import Mathlib.Data.Nat.Digits.Lemmas

/-! The encoding of vertices can be decoded. -/

namespace PoL.Asn1

theorem minBytes_rec (n : ℕ) (h : 0 < n) : minBytes n = minBytes (n / 256) ++ [UInt8.ofNat (n % 256)] := by
  unfold minBytes
  rw [Nat.digits_def' (by norm_num) h]
  simp

theorem beToNat_minBytes (n : ℕ) : beToNat (minBytes n) = n := by
  induction n using Nat.strong_induction_on with
  | _ n ih =>
    rcases Nat.eq_zero_or_pos n with rfl | h
    · rfl
    · rw [minBytes_rec n h, beToNat_append, ih _ (Nat.div_lt_self h (by norm_num))]
      simp
      omega

theorem minBytes_length (n : ℕ) : (minBytes n).length = (Nat.digits 256 n).length := by
  simp [minBytes]

theorem minBytes_length_le (n k : ℕ) (h : n < 256 ^ k) : (minBytes n).length ≤ k := by
  rw [minBytes_length, Nat.digits_length_le_iff (by norm_num)]
  exact h

theorem decLen_encLen (n : ℕ) (hn : n < 2147483648) (rest : Bytes) :
    decLen (encLen n ++ rest) = some (n, rest) := by
  unfold encLen
  by_cases h : n < 128
  · rw [if_pos h, List.singleton_append, decLen]
    have : (UInt8.ofNat n).toNat = n := by
      rw [UInt8.toNat_ofNat']; omega
    rw [this, if_pos h]
  · rw [if_neg h, List.cons_append, decLen]
    have hl := minBytes_length_le n 4 (by norm_num; omega)
    have : (UInt8.ofNat (128 + (minBytes n).length)).toNat = 128 + (minBytes n).length := by
      rw [UInt8.toNat_ofNat']; omega
    rw [this, if_neg (by omega)]
    simp only [Nat.add_sub_cancel_left, List.take_left, List.drop_left, beToNat_minBytes]
    rw [if_neg (by simp), if_pos ⟨trivial, by omega, hn⟩]

theorem encLen_length_le (n : ℕ) (hn : n < 2147483648) : (encLen n).length ≤ 5 := by
  unfold encLen
  have hl := minBytes_length_le n 4 (by norm_num; omega)
  split_ifs
  · simp
  · simp only [List.length_cons]; omega

theorem tlv_length_le (tag : UInt8) (c : Bytes) (h : c.length < 2147483648) :
    (tlv tag c).length ≤ c.length + 6 := by
  have := encLen_length_le c.length h
  simp [tlv]; omega

theorem tlv_ne_nil (tag : UInt8) (c : Bytes) : tlv tag c ≠ [] := by simp [tlv]

theorem readTlv_tlv (tag : UInt8) (c rest : Bytes) (h : c.length < 2147483648) :
    readTlv tag (tlv tag c ++ rest) = some (c, rest) := by
  unfold tlv
  rw [List.cons_append, readTlv, if_neg (by simp), List.append_assoc, decLen_encLen _ h]
  simp

/-- Everything is short enough for the decoder. -/
def KV.Small (kv : KV) : Prop := kv.K.length ≤ 64 ∧ kv.V.length ≤ 64

theorem encKV_length_le (kv : KV) (h : kv.Small) : (encKV kv).length ≤ 200 := by
  have h1 := tlv_length_le 0x04 kv.K (by have := h.1; omega)
  have h2 := tlv_length_le 0x04 kv.V (by have := h.2; omega)
  have h3 := h.1
  have h4 := h.2
  have h5 : (octets kv.K ++ octets kv.V).length ≤ 140 := by
    rw [List.length_append]; unfold octets; omega
  have := tlv_length_le 0x30 (octets kv.K ++ octets kv.V) (by omega)
  unfold encKV sequence; omega

theorem flatMap_encKV_length_le (l : List KV) (h : ∀ kv ∈ l, kv.Small) :
    (l.flatMap encKV).length ≤ 200 * l.length := by
  induction l with
  | nil => simp
  | cons a l ih =>
    have h1 := encKV_length_le a (h a (by simp))
    have h2 := ih (fun kv hk => h kv (by simp [hk]))
    simp only [List.flatMap_cons, List.length_append, List.length_cons]
    omega

theorem decKV_encKV (kv : KV) (h : kv.Small) (rest : Bytes) :
    decKV (encKV kv ++ rest) = some (kv, rest) := by
  have h1 := h.1
  have h2 := h.2
  have l1 := tlv_length_le 0x04 kv.K (by omega)
  have l2 := tlv_length_le 0x04 kv.V (by omega)
  unfold decKV encKV sequence
  rw [readTlv_tlv _ _ _ (by rw [List.length_append]; unfold octets; omega)]
  unfold octets
  simp only [Option.pure_def, Option.bind_eq_bind, Option.bind_some]
  rw [readTlv_tlv _ _ _ (by omega)]
  simp only [Option.bind_some]
  have := readTlv_tlv 0x04 kv.V [] (by omega)
  rw [List.append_nil] at this
  rw [this]
  rfl

theorem decKVs_enc (l : List KV) (h : ∀ kv ∈ l, kv.Small) (fuel : ℕ) (hf : l.length ≤ fuel) :
    decKVs fuel (l.flatMap encKV) = some l := by
  induction l generalizing fuel with
  | nil => cases fuel <;> rfl
  | cons a l ih =>
    cases fuel with
    | zero => simp at hf
    | succ fuel =>
      rw [List.flatMap_cons]
      have hne : encKV a ++ l.flatMap encKV ≠ [] := by
        simp [encKV, sequence, tlv_ne_nil]
      rw [decKVs.eq_3 _ _ (by simpa using hne), decKV_encKV a (h a (by simp))]
      simp only [Option.pure_def, Option.bind_eq_bind, Option.bind_some]
      rw [ih (fun kv hk => h kv (by simp [hk])) fuel (by simpa using hf)]
      rfl

theorem length_le_flatMap_encKV (l : List KV) : l.length ≤ (l.flatMap encKV).length := by
  induction l with
  | nil => simp
  | cons a l ih =>
    simp only [List.flatMap_cons, List.length_append, List.length_cons]
    have : 0 < (encKV a).length := by
      rw [List.length_pos_iff]; simp [encKV, sequence, tlv_ne_nil]
    omega

theorem unmarshal_marshal (rv : RawVertex) (hb : rv.blindingFactor.length ≤ 64) (hs : rv.sum.length ≤ 64)
    (hV : rv.V.length ≤ 64) (hW : rv.W.length ≤ 64) (hv : ∀ kv ∈ rv.values, kv.Small)
    (hd : ∀ kv ∈ rv.digests, kv.Small) (hvl : rv.values.length ≤ 65536) (hdl : rv.digests.length ≤ 65536) :
    unmarshal (marshal rv) = some rv := by
  have l1 := tlv_length_le 0x04 rv.blindingFactor (by omega)
  have l2 := tlv_length_le 0x04 rv.sum (by omega)
  have l3 := tlv_length_le 0x04 rv.V (by omega)
  have l4 := tlv_length_le 0x04 rv.W (by omega)
  have f1 := flatMap_encKV_length_le _ hv
  have f2 := flatMap_encKV_length_le _ hd
  have l5 := tlv_length_le 0x30 (rv.values.flatMap encKV) (by omega)
  have l6 := tlv_length_le 0x30 (rv.digests.flatMap encKV) (by omega)
  unfold unmarshal marshal
  have := readTlv_tlv 0x30 (octets rv.blindingFactor ++ sequence (rv.values.flatMap encKV)
    ++ sequence (rv.digests.flatMap encKV) ++ octets rv.sum ++ octets rv.V ++ octets rv.W) []
    (by simp only [List.length_append]; unfold octets sequence; omega)
  rw [List.append_nil] at this
  unfold sequence at this ⊢
  rw [this]
  unfold octets
  simp only [Option.pure_def, Option.bind_eq_bind, Option.bind_some, List.append_assoc]
  rw [readTlv_tlv _ _ _ (by omega)]
  simp only [Option.bind_some]
  rw [readTlv_tlv _ _ _ (by omega)]
  simp only [Option.bind_some]
  rw [readTlv_tlv _ _ _ (by omega)]
  simp only [Option.bind_some]
  rw [readTlv_tlv _ _ _ (by omega)]
  simp only [Option.bind_some]
  rw [readTlv_tlv _ _ _ (by omega)]
  simp only [Option.bind_some]
  have := readTlv_tlv 0x04 rv.W [] (by omega)
  rw [List.append_nil] at this
  rw [this]
  simp only [Option.bind_some]
  rw [decKVs_enc _ hv _ (length_le_flatMap_encKV _), decKVs_enc _ hd _ (length_le_flatMap_encKV _)]
  rfl

theorem marshal_ne_nil (rv : RawVertex) : marshal rv ≠ [] := tlv_ne_nil _ _

end PoL.Asn1
