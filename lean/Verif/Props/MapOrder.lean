import Verif.Proofs.MapOrder
import Verif.Props.Pointers

/-! # C111: the order in which Go visits maps shows in the bytes stored, and nowhere else -/

namespace PoL.Props
open Spec Verkle Pol

variable {G1 G2 GT : Type} [AddCommGroup G1] [Module Zr G1] [AddCommGroup G2] [Module Zr G2]
  [AddCommGroup GT] [Module Zr GT] [DecidableEq G1] [DecidableEq GT]

/-- C111: two runs of one session that differ in the order of every `range` over a map, and start over databases with the same
vertices, either both panic, or the callers see the same, and hold the same roots, totals and proofs, the same tree, and databases
with the same vertices. -/
theorem C111_map_order_is_invisible {E : Curve G1 G2 GT} (hE : E.Lawful) {env env' : Env} (henv : env.Lawful)
    (henv' : env'.Lawful) (hr : env.rand = env'.rand) (α α' : Zr) (fanOut : UInt16) (treeType : TreeType) {db db' : Db}
    (hdb : SameVertices E db db') (cs : List ApiCall) :
    (session E env α α' fanOut treeType db cs = none ∧ session E env' α α' fanOut treeType db' cs = none) ∨
      ∃ p q seen, session E env α α' fanOut treeType db cs = some (p, seen) ∧
        session E env' α α' fanOut treeType db' cs = some (q, seen) ∧ SameHeld E p q := by
  unfold session
  have h := orel_bind_eq (o := generatePublicParams E α fanOut treeType) fun r =>
    apiCalls_alike (q := ⟨newLiabilitySet E α' r.2 db' r.1, r.2, r.1, [], [], []⟩)
      (p := ⟨newLiabilitySet E α' r.2 db r.1, r.2, r.1, [], [], []⟩) hE henv henv' hr
      ⟨rfl, rfl, ⟨Iff.rfl, rfl⟩, rfl, hdb, rfl, rfl, rfl, rfl, rfl⟩ cs
  rcases h with h | ⟨⟨p, l⟩, ⟨q, l'⟩, h1, h2, h3, h4⟩
  · exact .inl h
  · obtain rfl : l = l' := h4
    exact .inr ⟨p, q, l, h1, h2, h3⟩

/-- The bytes of a vertex tell the orders in which its two maps were visited: `Bytes` is not a function of the vertex. -/
theorem C111_bytes_tell_the_order {E : Curve G1 G2 GT} (hE : E.Lawful) (v : Verkle.Vertex G1) (od ov od' ov' : List UInt16)
    (hd : od.Nodup) (hv : ov.Nodup) (hd' : od'.Nodup) (hv' : ov'.Nodup) (h : v.bytes E od ov = v.bytes E od' ov') :
    od = od' ∧ ov = ov' := bytes_orders hE v od ov od' ov' hd hv hd' hv' h

/-- The other order. -/
def reversedEnv : Env where
  rand := toyEnv.rand
  orderDigests t m := (toyEnv.orderDigests t m).reverse
  orderValues t m := (toyEnv.orderValues t m).reverse

theorem reversedEnv_lawful : reversedEnv.Lawful where
  digests_nodup t m := List.nodup_reverse.2 (toyEnv_lawful.digests_nodup t m)
  digests_mem t m k := List.mem_reverse.trans (toyEnv_lawful.digests_mem t m k)
  values_nodup t m := List.nodup_reverse.2 (toyEnv_lawful.values_nodup t m)
  values_mem t m k := List.mem_reverse.trans (toyEnv_lawful.values_mem t m k)

/-! ## The hypotheses can be met -/

/-- The session of `hash80_session`, with the maps visited the other way round. -/
example : ∃ p q, session hash80Curve toyEnv 2 3 255 .sparse (fun _ => [])
      [.set ('8' :: List.replicate 63 '0') 5, .proveTot, .root, .verifyTotal 0 0] =
      some (p, [.nothing, .total 5, .isRoot true, .verdict true]) ∧
    session hash80Curve reversedEnv 2 3 255 .sparse (fun _ => [])
      [.set ('8' :: List.replicate 63 '0') 5, .proveTot, .root, .verifyTotal 0 0] =
      some (q, [.nothing, .total 5, .isRoot true, .verdict true]) ∧ SameHeld hash80Curve p q := by
  obtain ⟨s, hs⟩ := hash80_session
  rcases C111_map_order_is_invisible hash80Curve_lawful toyEnv_lawful reversedEnv_lawful rfl 2 3 255 .sparse
    (db := fun _ => []) (db' := fun _ => []) (fun _ => ⟨Iff.rfl, rfl⟩)
    [.set ('8' :: List.replicate 63 '0') 5, .proveTot, .root, .verifyTotal 0 0] with ⟨h, -⟩ | ⟨p, q, l, h1, h2, h3⟩
  · rw [hs] at h
    exact absurd h (by simp)
  · rw [hs, Option.some.injEq, Prod.mk.injEq] at h1
    obtain ⟨rfl, rfl⟩ := h1
    exact ⟨_, _, hs, h2, h3⟩

/-- A vertex of two values under two orders: other bytes, the same vertex. -/
example : ∃ v : Verkle.Vertex Zr, v.bytes toyCurve [] [0, 1] ≠ v.bytes toyCurve [] [1, 0] ∧
    SameValue toyCurve (v.bytes toyCurve [] [0, 1]) (v.bytes toyCurve [] [1, 0]) := by
  refine ⟨⟨5, (ZrMap.empty.set 0 3).set 1 4, .empty, 7, 2, none⟩, fun h => ?_, by simp [bytes_ne_nil], ?_⟩
  · exact absurd (C111_bytes_tell_the_order toyCurve_lawful _ _ _ _ _ (by simp) (by decide) (by simp) (by decide) h).2 (by decide)
  · have hm : ∀ k : UInt16, (((ZrMap.empty.set 0 3).set 1 4) k).isSome ↔ k = 0 ∨ k = 1 := by
      intro k
      by_cases h0 : k = 0 <;> by_cases h1 : k = 1 <;> simp_all [ZrMap.set, ZrMap.empty]
    rw [fromBytes_bytes toyCurve_lawful _ [] [0, 1] (by simp [ZrMap.empty]) (by intro k; rw [hm]; simp) (by simp) (by decide),
      fromBytes_bytes toyCurve_lawful _ [] [1, 0] (by simp [ZrMap.empty]) (by intro k; rw [hm]; simp [or_comm]) (by simp) (by decide)]

end PoL.Props
