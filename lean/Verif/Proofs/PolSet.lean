import Verif.Proofs.PolHonest

/-! Liability sets as runs of the Verkle tree. -/

set_option linter.unusedSectionVars false

namespace PoL.Pol
open Spec BP PP Verkle

variable {G1 G2 GT : Type} [AddCommGroup G1] [Module Zr G1] [AddCommGroup G2] [Module Zr G2]
  [AddCommGroup GT] [Module Zr GT] [DecidableEq G1] [DecidableEq GT]

theorem lastPut_byPath {id2Path : Str → Option (List ℕ)} {id : Str} {p : List ℕ} (hp : id2Path id = some p)
    (hist : List (Str × ℤ)) (hret : ∀ e ∈ hist, (id2Path e.1).isSome) (hinj : ∀ e ∈ hist, id2Path e.1 = id2Path id → e.1 = id) :
    lastPut (byPath id2Path hist) p = lastPut hist id := by
  unfold lastPut byPath
  induction hist using List.reverseRecOn with
  | nil => rfl
  | append_singleton hist e ih =>
    have ih := ih (fun e he => hret e (by simp [he])) (fun e he => hinj e (by simp [he]))
    rw [List.map_append, List.reverse_append, List.reverse_append]
    simp only [List.map_cons, List.map_nil, List.reverse_cons, List.reverse_nil, List.nil_append, List.cons_append,
      List.find?_cons]
    obtain ⟨q, hq⟩ := Option.isSome_iff_exists.1 (hret e (by simp))
    by_cases he : e.1 = id
    · rw [he, hp]; simp
    · have hne : q ≠ p := by
        rintro rfl
        exact he (hinj e (by simp) (by rw [hq, hp]))
      rw [hq]
      simp only [Option.getD_some, hne, he, decide_false]
      exact ih

theorem sets_iff (E : Curve G1 G2 GT) (env : Env) (hist : List (Str × ℤ)) (ls ls' : LiabilitySet G1 G2 GT) :
    ls.sets E env hist = some ls' ↔ (∀ e ∈ hist, 0 ≤ e.2) ∧
      ∃ t s, ls.tree.puts E env hist ls.s = some (t, s) ∧ ls' = { ls with tree := t, s := s } := by
  induction hist using List.reverseRecOn generalizing ls' with
  | nil =>
    rw [vputs_nil]
    unfold LiabilitySet.sets
    simp only [List.foldlM_nil, List.not_mem_nil, false_imp_iff, implies_true, true_and]
    constructor
    · intro h
      exact ⟨ls.tree, ls.s, rfl, (Option.some.inj h).symm⟩
    · rintro ⟨t, s, h, rfl⟩
      rw [Option.some.injEq, Prod.mk.injEq] at h
      rw [← h.1, ← h.2]
      rfl
  | append_singleton hist e ih =>
    have hs : ls.sets E env (hist ++ [e]) = (ls.sets E env hist).bind fun l => l.set E env e.1 e.2 := by
      unfold LiabilitySet.sets
      rw [List.foldlM_append]
      simp
    rw [hs, vputs_concat]
    constructor
    · intro h
      obtain ⟨l, h1, h2⟩ := Option.bind_eq_some_iff.1 h
      obtain ⟨hn, t, s, ht, rfl⟩ := (ih l).1 h1
      unfold LiabilitySet.set at h2
      split_ifs at h2 with hneg
      obtain ⟨⟨t', s'⟩, h3, h4⟩ := obind_elim h2
      refine ⟨?_, t', s', ?_, (Option.some.inj h4).symm⟩
      · intro x hx
        rcases List.mem_append.1 hx with hx | hx
        · exact hn x hx
        · rw [List.mem_singleton] at hx; subst hx; omega
      · rw [ht]; exact h3
    · rintro ⟨hn, t', s', h, rfl⟩
      obtain ⟨⟨t, s⟩, h1, h2⟩ := Option.bind_eq_some_iff.1 h
      have h3 := (ih { ls with tree := t, s := s }).2 ⟨fun x hx => hn x (by simp [hx]), t, s, h1, rfl⟩
      rw [h3, Option.bind_some]
      unfold LiabilitySet.set
      have := hn e (by simp)
      rw [if_neg (by omega)]
      exact obind_step h2 rfl

theorem sets_append (E : Curve G1 G2 GT) (env : Env) (h1 h2 : List (Str × ℤ)) (ls : LiabilitySet G1 G2 GT) :
    ls.sets E env (h1 ++ h2) = (ls.sets E env h1).bind fun l => l.sets E env h2 := by
  unfold LiabilitySet.sets
  rw [List.foldlM_append]
  rfl

/-- The tree keeps its parameters. -/
theorem puts_fields' {E : Curve G1 G2 GT} {env : Env} {t t' : Tree G1 G2 GT} {hist : List (Str × ℤ)} {s s' : State}
    (h : t.puts E env hist s = some (t', s')) : t' = { t with root := t'.root } := by
  rw [vputs_sparse] at h
  obtain ⟨⟨ts, s1⟩, -, h2⟩ := Option.map_eq_some_iff.1 h
  simp only [Prod.mk.injEq] at h2
  rw [← h2.1]

/-- An identifier with a path of full length that was never written is not found. -/
theorem get_unset {E : Curve G1 G2 GT} {env : Env} {F L : ℕ} {t t' : Tree G1 G2 GT} (hroot : t.root = none)
    {hist : List (Str × ℤ)} {s s' : State} (hids : ValidIds t.id2Path F L hist) (h : t.puts E env hist s = some (t', s'))
    (id : Str) (p : List ℕ) (hp : t.id2Path id = some p) (hpL : p.length = L)
    (hw : p ∉ (byPath t.id2Path hist).map Prod.fst) (db : Db) : t'.get E env id db = some none := by
  have hl := leaf_data hroot hids h p hpL
  have hn : lastPut (byPath t.id2Path hist) p = none := by
    rw [← Option.not_isSome_iff_eq_none, lastPut_isSome]; exact hw
  rw [hn, Option.map_none, Option.map_eq_none_iff] at hl
  have hid : t'.id2Path = t.id2Path := by rw [puts_fields' h]
  have hs : (t'.sparse E env).get id = some none := by
    unfold Sparse.Tree.get
    have e1 : (t'.sparse E env).id2Path id = some p := by
      show t'.id2Path id = some p
      rw [hid]; exact hp
    refine obind_step e1 ?_
    have e2 : (t'.sparse E env).root = t'.root := rfl
    rw [e2]
    cases hr : t'.root with
    | none => rfl
    | some v =>
      rw [hr, Option.bind_some] at hl
      dsimp only
      rw [Sparse.getAt_none p v hl]
      rfl
  unfold Tree.get
  exact obind_step hs rfl

/-- An identifier whose path is a proper prefix of a written one makes `Get` panic. -/
theorem get_prefix {E : Curve G1 G2 GT} (hE : E.Lawful) {env : Env} (henv : env.Lawful) {α : Zr} {F : ℕ}
    {t t' : Tree G1 G2 GT} (ht : NewTree E α F t) {L : ℕ} (hL : 1 ≤ L) (hist : List (Str × ℤ)) {s s' : State}
    (hids : ValidIds t.id2Path F L hist) (h : t.puts E env hist s = some (t', s')) (id : Str) (q : List ℕ)
    (hq : t.id2Path id = some q) (hqL : q.length < L) (htou : touched (byPath t.id2Path hist) q) (db : Db) :
    t'.get E env id db = none := by
  obtain ⟨t1, s1, h1, h1t, -, hgood, -⟩ := puts_good hE henv α F ht.bound.le t ht.pp ht.fanOut ht.root L hL hist s hids
  rw [h, Option.some.injEq, Prod.mk.injEq] at h1
  obtain ⟨rfl, rfl⟩ := h1
  have hhe : hist ≠ [] := by
    rintro rfl
    obtain ⟨e, he, -⟩ := htou
    simp [byPath] at he
  obtain ⟨v, hv, hg⟩ := hgood hhe
  obtain ⟨v', u, hv', hu⟩ := find_touched ht.root hids h q htou
  rw [hv, Option.some.injEq] at hv'
  subst hv'
  have hgu := hg.find q (by omega) u hu
  obtain ⟨m, hm⟩ : ∃ m, L - q.length = m + 1 := ⟨L - q.length - 1, by omega⟩
  rw [hm, List.nil_append] at hgu
  have hdata := hgu.2.1
  obtain ⟨us, hget, -⟩ := Sparse.getAt_eq q v u hu
  have hs : (t'.sparse E env).get id = some (some (u.data, us)) := by
    unfold Sparse.Tree.get
    have : (t'.sparse E env).id2Path id = some q := by rw [h1t]; exact hq
    refine obind_step this ?_
    have hr : (t'.sparse E env).root = some v := hv
    rw [hr]
    dsimp only
    rw [hget]
    rfl
  unfold Tree.get
  rw [hs, hdata]
  simp only [Option.bind_eq_bind, Option.bind_some, Data.int64, Option.bind_none]
  cases us.mapM fun u => do
      let key ← (← u.data).str
      Verkle.Vertex.fromBytes E (db key) <;> rfl

end PoL.Pol
