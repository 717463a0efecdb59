import Verif.Proofs.RecoverFresh
import Verif.Proofs.PolSet
import Verif.Proofs.Paths2
import Verif.Props.Verkle

/-!
# Liability sets of which panics are recovered
-/

set_option linter.unusedSectionVars false

namespace PoL

/-- The components of dense paths are 16-bit numbers. -/
theorem digitPathFn_lt (f : UInt16) (hf : 2 ≤ f.toNat) (s : Str) (p : List ℕ) (h : digitPathFn f s = some p) :
    ∀ x ∈ p, x < 65536 := by
  have hlt := f.toNat_lt
  unfold digitPathFn at h
  split_ifs at h
  obtain ⟨num, -, h⟩ := Option.bind_eq_some_iff.1 h
  obtain ⟨res, hres, h⟩ := Option.bind_eq_some_iff.1 h
  obtain ⟨len, -, h⟩ := Option.bind_eq_some_iff.1 h
  have hr : ∀ x ∈ res, x < 65536 := by
    intro x hx
    rcases le_or_gt num 0 with hn | hn
    · rw [digitsLoop_nonpos _ _ hn, Option.some.injEq] at hres
      rw [← hres] at hx; cases hx
    · obtain ⟨n, rfl⟩ := Int.eq_ofNat_of_zero_le hn.le
      rw [digitsLoop_nat _ hf (by omega), Option.some.injEq] at hres
      rw [← hres] at hx
      have := Nat.digits_lt_base hf hx
      omega
  simp only [Option.pure_def, Option.some.injEq] at h
  subst h
  intro x hx
  split_ifs at hx
  · rcases List.mem_append.1 hx with hx | hx
    · exact hr x hx
    · rw [List.mem_singleton.1 hx]; norm_num
  · exact hr x hx

namespace Sparse

/-- A put that returns has its last component below the fan-out: otherwise `rawData` panics. -/
theorem putAtR_ok_last {D σ : Type} (F : ℕ) (upd : UpdateR D σ) (a : Option D) (q : List ℕ) (c : ℕ) (ps : Str)
    (v : Vertex D) (s : σ) (h : (putAtR F upd a (q ++ [c]) ps v s).ok = true) : c < F := by
  induction q generalizing ps v s with
  | nil =>
    rw [List.nil_append, putAtR_cons] at h
    rcases roundR_cases F upd v ([] : List ℕ).isEmpty c (putAtR F upd a [] (childKey ps c)
        ((descGet v.desc c).getD (.mk (childKey ps c) none [])) s) with ⟨r1, -⟩ | ⟨-, raw, hraw, -⟩
    · rw [r1] at h; cases h
    · obtain ⟨-, hlt⟩ := rawData_some _ _ _ hraw
      refine hlt c (putAtR F upd a [] (childKey ps c) ((descGet v.desc c).getD (.mk (childKey ps c) none [])) s).vertex ?_
      rw [descGet_descSet, if_pos rfl]
  | cons p t ih =>
    rw [List.cons_append, putAtR_cons] at h
    refine ih (childKey ps p) ((descGet v.desc p).getD (.mk (childKey ps p) none [])) s ?_
    by_contra hn
    rw [roundR_not_ok _ _ _ _ _ _ (by simpa using hn)] at h
    cases h

end Sparse
end PoL

namespace PoL.Pol
open Sparse Verkle Spec

variable {G1 G2 GT : Type} [AddCommGroup G1] [Module Zr G1] [AddCommGroup G2] [Module Zr G2]
  [AddCommGroup GT] [Module Zr GT] [DecidableEq G1] [DecidableEq GT]

/-- The root vertex, or the one that `Put` creates. -/
def top (ls : LiabilitySet G1 G2 GT) : Sparse.Vertex Data := ls.tree.root.getD (.mk [] none [])

theorem setR_fields (E : Curve G1 G2 GT) (env : Env) (ls : LiabilitySet G1 G2 GT) (id : Str) (n : ℤ) :
    (ls.setR E env id n).2.tree.id2Path = ls.tree.id2Path ∧ (ls.setR E env id n).2.tree.PP = ls.tree.PP ∧
      (ls.setR E env id n).2.tree.fanOut = ls.tree.fanOut ∧ (ls.setR E env id n).2.pp = ls.pp ∧
      (ls.setR E env id n).2.memRoot = ls.memRoot := by
  unfold LiabilitySet.setR Tree.putR
  dsimp only
  repeat' split
  all_goals exact ⟨rfl, rfl, rfl, rfl, rfl⟩

/-- A `Set` either changes nothing and does not return, or is a put below the root. -/
theorem setR_cases (E : Curve G1 G2 GT) (env : Env) (ls : LiabilitySet G1 G2 GT) (id : Str) (n : ℤ) :
    ls.setR E env id n = (false, ls) ∧ (n < 0 ∨ ls.tree.id2Path id = none) ∨
    ∃ path, 0 ≤ n ∧ ls.tree.id2Path id = some path ∧
      (ls.setR E env id n).1 =
        (putAtR ls.tree.fanOut (updateInnerVertexR E ls.tree.PP env) (some (.amount n)) path (keyOf []) (top ls) ls.s).ok ∧
      top (ls.setR E env id n).2 =
        (putAtR ls.tree.fanOut (updateInnerVertexR E ls.tree.PP env) (some (.amount n)) path (keyOf []) (top ls) ls.s).vertex ∧
      (ls.setR E env id n).2.s =
        (putAtR ls.tree.fanOut (updateInnerVertexR E ls.tree.PP env) (some (.amount n)) path (keyOf []) (top ls) ls.s).state ∧
      (ls.setR E env id n).2.tree.root = some (top (ls.setR E env id n).2) := by
  unfold LiabilitySet.setR Tree.putR
  by_cases hn : n < 0
  · rw [if_pos hn]; exact Or.inl ⟨rfl, Or.inl hn⟩
  · rw [if_neg hn]
    cases hp : ls.tree.id2Path id with
    | none => exact Or.inl ⟨rfl, Or.inr rfl⟩
    | some path => exact Or.inr ⟨path, by omega, rfl, rfl, rfl, rfl, rfl⟩

theorem attempts_nil (E : Curve G1 G2 GT) (env : Env) (ls : LiabilitySet G1 G2 GT) : ls.attempts E env [] = ls := rfl

theorem attempts_concat (E : Curve G1 G2 GT) (env : Env) (ls : LiabilitySet G1 G2 GT) (h : List (Str × ℤ)) (e : Str × ℤ) :
    ls.attempts E env (h ++ [e]) = ((ls.attempts E env h).setR E env e.1 e.2).2 := by
  unfold LiabilitySet.attempts
  rw [List.foldl_append]
  rfl

theorem attempts_fields (E : Curve G1 G2 GT) (env : Env) (ls : LiabilitySet G1 G2 GT) (h : List (Str × ℤ)) :
    (ls.attempts E env h).tree.id2Path = ls.tree.id2Path ∧ (ls.attempts E env h).tree.PP = ls.tree.PP ∧
      (ls.attempts E env h).tree.fanOut = ls.tree.fanOut := by
  induction h using List.reverseRecOn with
  | nil => exact ⟨rfl, rfl, rfl⟩
  | append_singleton h e ih =>
    rw [attempts_concat]
    obtain ⟨h1, h2, h3, -, -⟩ := setR_fields E env (ls.attempts E env h) e.1 e.2
    rw [h1, h2, h3]
    exact ih

theorem setR_keys (E : Curve G1 G2 GT) (env : Env) (ls : LiabilitySet G1 G2 GT) (id : Str) (n : ℤ)
    (h : KeysOk [] (top ls)) : KeysOk [] (top (ls.setR E env id n).2) := by
  rcases setR_cases E env ls id n with ⟨h1, -⟩ | ⟨path, -, -, -, h1, -⟩
  · rw [h1]; exact h
  · rw [h1]; exact h.putAtR

theorem attempts_keys (E : Curve G1 G2 GT) (env : Env) (ls : LiabilitySet G1 G2 GT) (hist : List (Str × ℤ))
    (h : KeysOk [] (top ls)) : KeysOk [] (top (ls.attempts E env hist)) := by
  induction hist using List.reverseRecOn with
  | nil => exact h
  | append_singleton hist e ih => rw [attempts_concat]; exact setR_keys E env _ _ _ ih

theorem top_fresh {ls : LiabilitySet G1 G2 GT} (h : ls.tree.root = none) : top ls = .mk [] none [] := by
  unfold top; rw [h]; rfl

theorem attempts_untouched {E : Curve G1 G2 GT} (hE : E.Lawful) {env : Env} (henv : env.Lawful)
    (ls : LiabilitySet G1 G2 GT) (hroot : ls.tree.root = none) (hdb : ∀ k, ls.s.db k = []) (hF : ls.tree.fanOut ≤ 65536)
    (hu : ∀ id p, ls.tree.id2Path id = some p → ∀ x ∈ p, x < 65536) (q : List ℕ) (c : ℕ) (hc : c < 65536)
    (hist : List (Str × ℤ))
    (hh : ∀ e ∈ hist, ∀ p, ls.tree.id2Path e.1 = some p → ¬ (q ++ [c]) <+: p) :
    Untouched E [] q c (top (ls.attempts E env hist)) (ls.attempts E env hist).s.db := by
  have hl : ∀ k, load E ls.s.db k = none := by
    intro k
    rw [load_eq, hdb]; rfl
  induction hist using List.reverseRecOn with
  | nil =>
    refine ⟨?_, hl _, fun x hx => ?_⟩
    · rw [attempts_nil, top_fresh hroot, find_fresh _ _ (by simp)]
    · rw [attempts_nil, hl] at hx; cases hx
  | append_singleton hist e ih =>
    have ih := ih fun e' he' => hh e' (by simp [he'])
    rw [attempts_concat]
    obtain ⟨f1, f2, f3⟩ := attempts_fields E env ls hist
    rcases setR_cases E env (ls.attempts E env hist) e.1 e.2 with ⟨h1, -⟩ | ⟨path, -, hp, -, h1, h2, -⟩
    · rw [h1]; exact ih
    · rw [h1, h2]
      rw [f1] at hp
      have hk : KeysOk [] (top (ls.attempts E env hist)) :=
        attempts_keys E env ls hist (by rw [top_fresh hroot]; exact keysOk_fresh [])
      exact untouched_put hE henv _ _ (by rw [f3]; exact hF) _ path [] q c _ hk _ (hu _ _ hp) hc ih
        (hh e (by simp) path hp)

theorem attempts_poisoned {E : Curve G1 G2 GT} (hE : E.Lawful) {env : Env} (henv : env.Lawful)
    (ls : LiabilitySet G1 G2 GT) (hk : KeysOk [] (top ls))
    (hu : ∀ id p, ls.tree.id2Path id = some p → ∀ x ∈ p, x < 65536) (q : List ℕ) (c : ℕ) (hc : c < 65536)
    (hcN : c < ls.tree.PP.N) (hist : List (Str × ℤ)) (h : Poisoned E [] q c (top ls) ls.s.db) :
    Poisoned E [] q c (top (ls.attempts E env hist)) (ls.attempts E env hist).s.db := by
  induction hist using List.reverseRecOn with
  | nil => exact h
  | append_singleton hist e ih =>
    rw [attempts_concat]
    obtain ⟨f1, f2, f3⟩ := attempts_fields E env ls hist
    rcases setR_cases E env (ls.attempts E env hist) e.1 e.2 with ⟨h1, -⟩ | ⟨path, -, hp, -, h1, h2, -⟩
    · rw [h1]; exact ih
    · rw [h1, h2]
      rw [f1] at hp
      exact (poisoned_put hE henv _ _ _ path [] q c _ (attempts_keys E env ls hist hk) _ (hu _ _ hp) hc
        (by rw [f2]; exact hcN) ih).1

/-- In both models `Set` returns in the same cases, with the same result. -/
theorem setR_iff (E : Curve G1 G2 GT) (env : Env) (ls ls' : LiabilitySet G1 G2 GT) (id : Str) (n : ℤ) :
    ls.setR E env id n = (true, ls') ↔ ls.set E env id n = some ls' := by
  unfold LiabilitySet.setR LiabilitySet.set Tree.putR Verkle.Tree.put Sparse.Tree.put
  by_cases hn : n < 0
  · rw [if_pos hn, if_pos hn]; simp
  · rw [if_neg hn, if_neg hn]
    simp only [Option.bind_eq_bind, Option.pure_def, Tree.sparse]
    cases hp : ls.tree.id2Path id with
    | none => simp
    | some path =>
      simp only [Option.bind_some]
      rcases hr : putAtR ls.tree.fanOut (updateInnerVertexR E ls.tree.PP env) (some (.amount n)) path []
        (ls.tree.root.getD (.mk [] none [])) ls.s with ⟨ok, v, s⟩
      cases ok with
      | true =>
        rw [(putAtR_iff (updateR_iff E ls.tree.PP env) path [] _ v _ s).1 hr]
        simp
      | false =>
        have : putAt ls.tree.fanOut (updateInnerVertex E ls.tree.PP env) (some (.amount n)) path []
            (ls.tree.root.getD (.mk [] none [])) ls.s = none := by
          cases hc : putAt ls.tree.fanOut (updateInnerVertex E ls.tree.PP env) (some (.amount n)) path []
            (ls.tree.root.getD (.mk [] none [])) ls.s with
          | none => rfl
          | some x =>
            obtain ⟨x1, x2⟩ := x
            rw [← putAtR_iff (updateR_iff E ls.tree.PP env), hr] at hc
            cases hc
        rw [this]
        simp

end PoL.Pol

namespace PoL.Pol
open Sparse Verkle Spec PoL.PP

variable {G1 G2 GT : Type} [AddCommGroup G1] [Module Zr G1] [AddCommGroup G2] [Module Zr G2]
  [AddCommGroup GT] [Module Zr GT] [DecidableEq G1] [DecidableEq GT]

/-- Writing an amount at a child of a stored vertex, whatever layer the vertex is in: the child's old value is
replaced by the amount in the sum. -/
theorem updateLeaf_any (E : Curve G1 G2 GT) (α : Zr) (F : ℕ) (hF : F + 2 ≤ 65536) (env : Env) (key : Str) (node : Data)
    (descendants : List (Option Data)) (p : ℕ) (hp : p < F) (s : State) (x : Verkle.Vertex G1) (vals : ℕ → Option Zr)
    (hx : load E s.db key = some x) (hv : x.values = mapBelow F vals) (b : ℤ)
    (hb : descendants[p]? = some (some (.amount b))) :
    ∃ V, updateLayerAboveLeaves E (newPublicParams E α (F + 2)) env key (some node) descendants p s
      = some (some (.key key), store E env key { x with
          sum := x.sum + (intToZr b - (vals p).getD 0)
          values := mapBelow F (Function.update vals p (some (intToZr b)))
          V := V } s) := by
  unfold updateLayerAboveLeaves
  dsimp only
  have hup : ∀ (C : G1) (m : List Zr) (mi : Zr) (i : ℕ), i ≤ F → m.length = F + 3 →
      ∃ C', (newPublicParams E α (F + 2)).update C m mi i = some C' := by
    intro C m mi i hi hm
    unfold PP.update
    have h1 : ∃ g, (newPublicParams E α (F + 2)).G1s[i]? = some g := by
      refine ⟨_, List.getElem?_eq_getElem ?_⟩
      show i < (((List.range (F + 2)).map _ ++ [E.genG1]) ++ (List.range (F + 2 - 1)).map _).length
      simp
      omega
    obtain ⟨g, hg⟩ := h1
    exact ⟨_, obind_step hg (obind_step (List.getElem?_eq_getElem (by omega)) rfl)⟩
  have hold : (x.values (UInt16.ofNat p)).getD (intToZr 0) = (vals p).getD 0 := by
    rw [hv, mapBelow_ofNat _ (by omega), if_pos hp]
    simp [intToZr]
  have hset : x.values.set (UInt16.ofNat p) (intToZr b) = mapBelow F (Function.update vals p (some (intToZr b))) := by
    rw [hv, mapBelow_set _ hp (by omega)]
  have hm : ∀ z : Zr, (((List.range (newPublicParams E α (F + 2)).N).map fun i =>
      (x.values (UInt16.ofNat i)).getD (intToZr 0)) ++ [z]).length = F + 3 := by
    intro z; simp
  have hsum : updateSum x.sum ((x.values (UInt16.ofNat p)).getD (intToZr 0)) (intToZr b)
      = x.sum + (intToZr b - (vals p).getD 0) := by rw [hold]; rfl
  obtain ⟨V1, h1⟩ := hup x.V _ (intToZr b) p hp.le (hm (x.sum + (intToZr b - (vals p).getD 0)))
  obtain ⟨V2, h2⟩ := hup V1 _ (x.sum + (intToZr b - (vals p).getD 0)) _
    (size_mapBelow_le F (by omega) (Function.update vals p (some (intToZr b)))) (hm (x.sum + (intToZr b - (vals p).getD 0)))
  refine ⟨V2, ?_⟩
  refine obind_step hx (obind_step hb (obind_step rfl (obind_step (rfl : Data.int64 (.amount b) = some b) ?_)))
  rw [hsum, hset]
  exact obind_step h1 (obind_step h2 rfl)

/-- `Put` at a child of the vertex, given what the callback does. -/
theorem putAt_one {D σ : Type} {F : ℕ} {upd : Sparse.Update D σ} {data d : Option D} {c : ℕ} {ps : Str}
    {v : Sparse.Vertex D} {s s' : σ} {raw : List (Option D)} (u : Sparse.Vertex D)
    (hu : u = .mk ((descGet v.desc c).getD (.mk (childKey ps c) none [])).key data
      ((descGet v.desc c).getD (.mk (childKey ps c) none [])).desc)
    (hraw : rawData (descSet v.desc c u) F = some raw) (hupd : upd v.key v.data raw true c s = some (d, s')) :
    putAt F upd data [c] ps v s = some (.mk v.key d (descSet v.desc c u), s') := by
  subst hu
  rw [putAt]
  exact obind_step (show putAt F upd data [] (childKey ps c) _ s = some _ from rfl) (obind_step hraw (obind_step hupd rfl))

/-- `Set` of an identifier whose leaf is a child of the root, in a set with longer paths: it returns, and the root's sum
has the amount in place of all that is below this child. -/
theorem set_over_root {E : Curve G1 G2 GT} (hE : E.Lawful) {env : Env} (henv : env.Lawful) {α : Zr} {F L : ℕ}
    {ls ls' : LiabilitySet G1 G2 GT} (h : NewSet E α F L ls) (hist : List (Str × ℤ)) (hne : hist ≠ [])
    (hids : ValidIds ls.tree.id2Path F L hist) (hr : ls.sets E env hist = some ls') (id : Str) (c : ℕ) (hc : c < F)
    (hid : ls.tree.id2Path id = some [c]) (a : ℤ) (ha : 0 ≤ a) :
    ∃ ls'' x v u, ls'.set E env id a = some ls'' ∧ ls''.pp = ls.pp ∧ ls''.tree.id2Path = ls.tree.id2Path ∧
      load E ls''.s.db [] = some x ∧
      x.sum = intToZr (totalAmount (byPath ls.tree.id2Path hist) - amountBelow (byPath ls.tree.id2Path hist) [c] + a) ∧
      ls''.tree.root = some v ∧ v.data = some (.key []) ∧ descGet v.desc c = some u ∧ u.data = some (.amount a) ∧
      ∃ v0, ls'.tree.root = some v0 ∧ ∀ u0, descGet v0.desc c = some u0 → u.desc = u0.desc := by
  have hL := h.pp.depth
  obtain ⟨-, t, s, hputs, rfl⟩ := (sets_iff E env hist ls ls').1 hr
  obtain ⟨t1, s1, g1, g2, -, hgood, -⟩ := puts_good hE henv α F h.tree.bound.le ls.tree h.tree.pp h.tree.fanOut
    h.tree.root L (by omega) hist ls.s hids
  rw [hputs, Option.some.injEq, Prod.mk.injEq] at g1
  obtain ⟨rfl, rfl⟩ := g1
  obtain ⟨v, hv, hg⟩ := hgood hne
  obtain ⟨m, rfl⟩ : ∃ m, L = m + 1 := ⟨L - 1, by omega⟩
  obtain ⟨x, hx, -, hxv⟩ := hg.stored
  obtain ⟨hkey, hdata, hdesc, -, -⟩ := hg
  -- the sums, from the history
  obtain ⟨y, hy, hysum, hyval, hyval'⟩ := Props.C39_stored_sums hE henv h.tree (by omega : 1 ≤ m + 1) hist hids hputs []
    (by simp) (by
      obtain ⟨e, l, rfl⟩ := List.exists_cons_of_ne_nil hne
      exact ⟨_, List.mem_cons_self, List.nil_prefix⟩)
  have hyx : y = x := by
    have := load_fromBytes hx
    rw [hy, Option.some.injEq] at this
    exact this
  subst hyx
  have hb := h.tree.bound
  have htot : amountBelow (byPath ls.tree.id2Path hist) [] = totalAmount (byPath ls.tree.id2Path hist) := by
    unfold amountBelow totalAmount
    congr 1
    ext q
    simp
  have hcv : (childVals F m v.desc c).getD 0 = intToZr (amountBelow (byPath ls.tree.id2Path hist) [c]) := by
    have e1 : y.values (UInt16.ofNat c) = childVals F m v.desc c := by
      rw [hxv, mapBelow_ofNat _ (by omega), if_pos hc]
    have e2 : (UInt16.ofNat c).toNat = c := toNat_ofNat16 (by omega)
    by_cases htc : touched (byPath ls.tree.id2Path hist) ([] ++ [c])
    · have := hyval (UInt16.ofNat c) (by rw [e2]; exact htc)
      rw [e1, e2] at this
      rw [this]; rfl
    · have := hyval' (UInt16.ofNat c) (by rw [e2]; exact htc)
      rw [e1] at this
      rw [this]
      have h0 : amountBelow (byPath ls.tree.id2Path hist) [c] = 0 := by
        unfold amountBelow
        rw [Finset.filter_false_of_mem, Finset.sum_empty]
        intro p hp hcp
        rw [List.mem_toFinset, List.mem_map] at hp
        obtain ⟨e, he, rfl⟩ := hp
        exact htc ⟨e, he, hcp⟩
      rw [h0]; simp [intToZr]
  -- the put
  obtain ⟨w, hw⟩ : ∃ w : Sparse.Vertex Data, w = .mk ((descGet v.desc c).getD (.mk (childKey [] c) none [])).key
    (some (.amount a)) ((descGet v.desc c).getD (.mk (childKey [] c) none [])).desc := ⟨_, rfl⟩
  have hwd : w.data = some (.amount a) := by rw [hw]; rfl
  have hraw : rawData (descSet v.desc c w) F
      = some ((List.range F).map fun i => (descGet (descSet v.desc c w) i).bind Sparse.Vertex.data) := by
    apply rawData_eq
    intro q u hq
    rw [descGet_descSet] at hq
    split_ifs at hq with hcq
    · omega
    · exact (hdesc q u hq).1
  have hget : ((List.range F).map fun i => (descGet (descSet v.desc c w) i).bind Sparse.Vertex.data)[c]?
      = some (some (.amount a)) := by
    rw [List.getElem?_map, List.getElem?_range hc, Option.map_some, descGet_descSet, if_pos rfl, ← hwd]
    rfl
  have hk0 : v.key = [] := hkey
  have hl0 : load E s.db [] = some y := hx
  obtain ⟨V, hupd⟩ := updateLeaf_any E α F h.tree.bound.le env [] (.key []) _ c hc s y (childVals F m v.desc) hl0 hxv a hget
  obtain ⟨y', hy'⟩ : ∃ y' : Verkle.Vertex G1, y' = { y with
          sum := y.sum + (intToZr a - (childVals F m v.desc c).getD 0)
          values := mapBelow F (Function.update (childVals F m v.desc) c (some (intToZr a)))
          V := V } := ⟨_, rfl⟩
  have hys : y'.sum = y.sum + (intToZr a - (childVals F m v.desc c).getD 0) := by rw [hy']
  rw [← hy'] at hupd
  have hPP : t.PP = newPublicParams E α (F + 2) := by rw [g2]; exact h.tree.pp
  have hfan : t.fanOut = F := by rw [g2]; exact h.tree.fanOut
  have hidt : t.id2Path = ls.tree.id2Path := by rw [g2]
  have hput := putAt_one (F := F) (upd := updateInnerVertex E t.PP env) (data := some (.amount a)) (ps := []) w hw hraw
    (s := s) (d := some (.key [])) (s' := store E env [] y' s) (by
      unfold updateInnerVertex
      rw [hk0, hdata, hPP]
      exact hupd)
  rw [hk0] at hput
  have hvput := vput_eq (E := E) (env := env) (t := t) (id := id) (n := a) (s := s) (by rw [hidt]; exact hid)
    (by rw [hfan, hv]; exact hput)
  refine ⟨{ ls with tree := { t with root := some (.mk [] (some (.key [])) (descSet v.desc c w)) }
                    s := store E env [] y' s }, y', .mk [] (some (.key [])) (descSet v.desc c w), w, ?_, rfl, hidt,
    load_store_self hE henv [] _ s, ?_, rfl, rfl, ?_, hwd, v, hv, ?_⟩
  · unfold LiabilitySet.set
    rw [if_neg (by omega)]
    exact obind_step hvput rfl
  · rw [hys, hysum, hcv, htot]
    simp only [intToZr]
    push_cast
    ring
  · show descGet (descSet v.desc c w) c = _
    rw [descGet_descSet, if_pos rfl]
  · intro u0 hu0
    rw [hw, hu0]
    rfl

/-- `Get` panics when the second vertex of a longer path has become a leaf. -/
theorem get_through_leaf (E : Curve G1 G2 GT) (env : Env) (t t' : Verkle.Tree G1 G2 GT) (db db' : Db) (id : Str)
    (c d : ℕ) (rest : List ℕ) (hid : t.id2Path id = some (c :: d :: rest)) (hid' : t'.id2Path id = some (c :: d :: rest))
    {r : ℤ × List (Verkle.Vertex G1)} (hget : t.get E env id db = some (some r))
    {v v' u : Sparse.Vertex Data} (hv : t.root = some v) (hv' : t'.root = some v') (hu : descGet v'.desc c = some u) {a : ℤ}
    (hud : u.data = some (.amount a)) (hdesc : ∀ u0, descGet v.desc c = some u0 → u.desc = u0.desc) :
    t'.get E env id db' = none := by
  have hs : ∀ (t : Verkle.Tree G1 G2 GT) v, t.root = some v → t.id2Path id = some (c :: d :: rest) →
      (t.sparse E env).get id = some (getAt (c :: d :: rest) v) := by
    intro t v hv hid
    unfold Sparse.Tree.get
    refine obind_step (show (t.sparse E env).id2Path id = _ from hid) ?_
    rw [show (t.sparse E env).root = some v from hv]
    rfl
  unfold Verkle.Tree.get at hget ⊢
  rw [hs t v hv hid] at hget
  rw [hs t' v' hv' hid']
  cases h0 : descGet v.desc c with
  | none => simp [getAt, h0] at hget
  | some u0 =>
    cases h1 : descGet u0.desc d with
    | none => simp [getAt, h0, h1] at hget
    | some u1 =>
      cases h2 : getAt rest u1 with
      | none => simp [getAt, h0, h1, h2] at hget
      | some x =>
        obtain ⟨n, vs⟩ := x
        have e : getAt (c :: d :: rest) v' = some (n, v' :: u :: vs) := by
          simp [getAt, hu, hdesc u0 h0, h1, h2]
        rw [e]
        simp only [Option.bind_eq_bind, Option.bind_some, List.mapM_cons, hud, Data.str]
        simp

end PoL.Pol
