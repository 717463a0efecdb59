import Verif.Proofs.Lost
import Verif.Props.Pointers

/-! # C112: a database that loses values can stop calls, but cannot change what they return -/

namespace PoL.Props
open Spec Verkle Pol

variable {G1 G2 GT : Type} [AddCommGroup G1] [Module Zr G1] [AddCommGroup G2] [Module Zr G2]
  [AddCommGroup GT] [Module Zr GT] [DecidableEq G1] [DecidableEq GT]

/-- C112: if a session over a database that loses any values at any time between the calls does not panic, then neither does the
session without the losses; the caller sees the same and holds the same roots, totals and proofs, and the databases differ in
missing values only. -/
theorem C112_losses_change_no_answer (E : Curve G1 G2 GT) (env : Env) (α α' : Zr) (fanOut : UInt16) (treeType : TreeType)
    {db db' : Db} (hdb : MissingSome db db') (cs : List LossyCall) (q : Held G1 G2 GT) (seen : List Seen)
    (h : lossySession E env α α' fanOut treeType db' cs = some (q, seen)) :
    ∃ p, session E env α α' fanOut treeType db (callsOf cs) = some (p, seen) ∧ SameButMissing p q := by
  have hb : Below (fun x y => SameButMissing x.1 y.1 ∧ x.2 = y.2) (session E env α α' fanOut treeType db (callsOf cs))
      (lossySession E env α α' fanOut treeType db' cs) := by
    unfold session lossySession
    exact below_bind_eq fun r => lossyCalls_below (p := ⟨newLiabilitySet E α' r.2 db r.1, r.2, r.1, [], [], []⟩)
      (q := ⟨newLiabilitySet E α' r.2 db' r.1, r.2, r.1, [], [], []⟩) E env
      ⟨rfl, rfl, rfl, rfl, hdb, rfl, rfl, rfl, rfl, rfl⟩ cs
  rcases hb with hb | ⟨⟨p, l⟩, y, h1, h2, h3, h4⟩
  · rw [h] at hb
    exact absurd hb (by simp)
  · rw [h, Option.some.injEq] at h2
    subst h2
    obtain rfl : l = seen := h4
    exact ⟨p, h1, h3⟩

/-- A session without losses is a session. -/
theorem C112_no_loss (E : Curve G1 G2 GT) (env : Env) (α α' : Zr) (fanOut : UInt16) (treeType : TreeType) (db : Db)
    (cs : List ApiCall) : lossySession E env α α' fanOut treeType db (cs.map .call) = session E env α α' fanOut treeType db cs := by
  have h : ∀ (cs : List ApiCall) (s : Held G1 G2 GT), lossyCalls E env s (cs.map .call) = apiCalls E env s cs := by
    intro cs
    induction cs with
    | nil => intro s; rfl
    | cons c cs ih =>
      intro s
      rw [List.map_cons]
      unfold lossyCalls apiCalls
      simp only [ih]
  unfold lossySession session
  simp only [h]

/-- The loss of the root is not passed over: `ProveTot` panics. -/
theorem C112_lost_root_stops_total (E : Curve G1 G2 GT) (ls : LiabilitySet G1 G2 GT) :
    ({ ls with s := { ls.s with db := loseKey ls.s.db [] } } : LiabilitySet G1 G2 GT).proveTot E = none := by
  have e : loseKey ls.s.db [] [] = [] := by simp [loseKey, Db.put]
  unfold LiabilitySet.proveTot
  dsimp only
  rw [e, fromBytes_nil]
  rfl

omit [DecidableEq GT] in
/-- The limit of C112: a database that gives back an older value of the root, not none, makes `ProveTot` prove the older total. -/
theorem C112_old_root_is_served (E : Curve G1 G2 GT) (old new : LiabilitySet G1 G2 GT) (hpp : old.pp = new.pp) :
    ({ new with s := { new.s with db := new.s.db.put [] (old.s.db []) } } : LiabilitySet G1 G2 GT).proveTot E
      = old.proveTot E := by
  have e : (new.s.db.put [] (old.s.db [])) [] = old.s.db [] := by simp [Db.put]
  unfold LiabilitySet.proveTot LiabilitySet.openSumFromVertex
  dsimp only
  rw [e, hpp]

/-! ## The hypotheses can be met -/

/-- The session of `hash80_session`, with a value lost that the later calls do not need: all calls return, and the total of 5 is
accepted. -/
example : ∃ q, lossySession hash80Curve toyEnv 2 3 255 .sparse (fun _ => [])
      [.call (.set ('8' :: List.replicate 63 '0') 5), .call .proveTot, .call .root, .lose [], .call (.verifyTotal 0 0)] =
      some (q, [.nothing, .total 5, .isRoot true, .verdict true]) := by
  obtain ⟨s, hs⟩ := hash80_session
  unfold session at hs
  obtain ⟨r, hr, hs⟩ := Option.bind_eq_some_iff.1 hs
  simp only [apiCalls, Option.bind_eq_bind, Option.pure_def, Option.bind_some] at hs
  obtain ⟨r1, h1, hs⟩ := Option.bind_eq_some_iff.1 hs
  obtain ⟨t1, hs, e1⟩ := Option.bind_eq_some_iff.1 hs
  obtain ⟨r2, h2, hs⟩ := Option.bind_eq_some_iff.1 hs
  obtain ⟨t2, hs, e2⟩ := Option.bind_eq_some_iff.1 hs
  obtain ⟨r3, h3, hs⟩ := Option.bind_eq_some_iff.1 hs
  obtain ⟨t3, hs, e3⟩ := Option.bind_eq_some_iff.1 hs
  obtain ⟨r4, h4, e4⟩ := Option.bind_eq_some_iff.1 hs
  rw [Option.some.injEq] at e1 e2 e3 e4
  subst e4 e3 e2
  have e1 := (Prod.mk.inj e1).2
  dsimp only at e1
  unfold lossySession
  refine ⟨{ r4.1 with ls := { r3.1.ls with s := { r3.1.ls.s with db := loseKey r3.1.ls.s.db [] } } }, ?_⟩
  simp only [apiCall, Option.bind_eq_bind, Option.pure_def] at h4
  obtain ⟨t, ht, h4⟩ := Option.bind_eq_some_iff.1 h4
  obtain ⟨w, hw, h4⟩ := Option.bind_eq_some_iff.1 h4
  obtain ⟨v, hv, h4⟩ := Option.bind_eq_some_iff.1 h4
  rw [Option.some.injEq] at h4
  subst h4
  have e5 : apiCall hash80Curve toyEnv
      { r3.1 with ls := { r3.1.ls with s := { r3.1.ls.s with db := loseKey r3.1.ls.s.db [] } } } (.verifyTotal 0 0) =
      some ({ r3.1 with ls := { r3.1.ls with s := { r3.1.ls.s with db := loseKey r3.1.ls.s.db [] } } }, .verdict v) := by
    simp only [apiCall, Option.bind_eq_bind, Option.pure_def]
    rw [ht, Option.bind_some, hw, Option.bind_some, hv, Option.bind_some]
  simp only [lossyCalls, hr, h1, h2, h3, e5, Option.bind_eq_bind, Option.pure_def, Option.bind_some]
  rw [e1]

end PoL.Props
