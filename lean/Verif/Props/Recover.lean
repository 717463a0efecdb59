import Verif.Proofs.RecoverKept
import Verif.Props.PolParams

/-!
# Identifiers of different depth, and what a panicking `Set` leaves behind (C88, C89)
-/

set_option linter.unusedSectionVars false

namespace PoL.Props
open Spec Pol Verkle Sparse

variable {G1 G2 GT : Type} [AddCommGroup G1] [Module Zr G1] [AddCommGroup G2] [Module Zr G2]
  [AddCommGroup GT] [Module Zr GT] [DecidableEq G1] [DecidableEq GT]

/-! ## C88: all nine-digit identifiers can be used together -/

/-- C88, the reason for the violation, for any path function: in a set with an empty database let any `Set`s be
made (`h1`; those that panic are recovered), none of them at or below the path `q.c`.  If then `Set` of an identifier
with this path returns, every later `Set` of an identifier whose path goes through `q` and is longer than `q.c` panics,
whatever is done in between (`h2`). -/
theorem C88_shorter_path_blocks {E : Curve G1 G2 GT} (hE : E.Lawful) {env : Env} (henv : env.Lawful)
    (ls : LiabilitySet G1 G2 GT) (hroot : ls.tree.root = none) (hdb : ∀ k, ls.s.db k = [])
    (hF : ls.tree.fanOut ≤ ls.tree.PP.N) (hF2 : ls.tree.fanOut ≤ 65536)
    (hu : ∀ id p, ls.tree.id2Path id = some p → ∀ x ∈ p, x < 65536)
    (q : List ℕ) (c : ℕ) (h1 : List (Str × ℤ))
    (hh1 : ∀ e ∈ h1, ∀ p, ls.tree.id2Path e.1 = some p → ¬ (q ++ [c]) <+: p)
    (id : Str) (a : ℤ) (hid : ls.tree.id2Path id = some (q ++ [c]))
    (ls1 : LiabilitySet G1 G2 GT) (hset : (ls.attempts E env h1).setR E env id a = (true, ls1)) (h2 : List (Str × ℤ))
    (id' : Str) (n : ℤ) (r : List ℕ) (hr : ls.tree.id2Path id' = some r) (hq : q <+: r) (hlen : q.length + 2 ≤ r.length) :
    ((ls1.attempts E env h2).setR E env id' n).1 = false := by
  obtain ⟨f1, f2, f3⟩ := attempts_fields E env ls h1
  have hc : c < 65536 := hu id _ hid c (by simp)
  have hk : KeysOk [] (top (ls.attempts E env h1)) :=
    attempts_keys E env ls h1 (by rw [top_fresh hroot]; exact keysOk_fresh [])
  have hunt := attempts_untouched hE henv ls hroot hdb hF2 hu q c hc h1 hh1
  obtain ⟨g1, g2, g3, -, -⟩ := setR_fields E env (ls.attempts E env h1) id a
  have hk1 := setR_keys E env (ls.attempts E env h1) id a hk
  rcases setR_cases E env (ls.attempts E env h1) id a with ⟨e1, -⟩ | ⟨path, -, hp, e1, e2, e3, -⟩
  · rw [hset] at e1; cases e1
  · rw [f1, hid, Option.some.injEq] at hp
    subst hp
    rw [hset] at e1 e2 e3 g1 g2 g3 hk1
    have hpois := poisoned_of_put hE henv _ _ _ [] q c _ hk _ hunt e1.symm
    rw [← e2, ← e3] at hpois
    have hcF : c < ls.tree.PP.N := by
      have := putAtR_ok_last _ _ _ q c _ _ _ e1.symm
      rw [f3] at this
      omega
    have hu1 : ∀ id p, ls1.tree.id2Path id = some p → ∀ x ∈ p, x < 65536 := by
      rw [g1, f1]; exact hu
    have hpois2 := attempts_poisoned hE henv ls1 hk1 hu1 q c hc (by rw [g2, f2]; exact hcF) h2 hpois
    obtain ⟨k1, k2, k3⟩ := attempts_fields E env ls1 h2
    rcases setR_cases E env (ls1.attempts E env h2) id' n with ⟨e4, -⟩ | ⟨path, -, hp, e4, -, -, -⟩
    · rw [e4]
    · rw [k1, g1, f1, hr, Option.some.injEq] at hp
      subst hp
      rw [e4]
      exact (poisoned_put hE henv _ _ _ r [] q c _ (attempts_keys E env ls1 h2 hk1) _ (hu _ _ hr) hc
        (by rw [k2, g2, f2]; exact hcF) hpois2).2 hq hlen

/-- The paths of dense identifiers: a number `n` below `fanout^(L-2)` has the path of its digits and a zero, and every
other number that ends in the same digits has a path through these digits that is longer. -/
theorem dense_short_path (fanout : UInt16) (toPath : Str → Option (List ℕ)) (h : digitPath fanout = some toPath)
    (hf : 2 ≤ fanout.toNat) (L : ℕ) (hL : digitPathLen fanout = some L) (s : Str) (hs : IsDenseId s)
    (hn : decimalValue s < fanout.toNat ^ (L - 2)) :
    toPath s = some (fanout.toNat.digits (decimalValue s) ++ [0]) ∧
    ∀ t, IsDenseId t → decimalValue t ≠ decimalValue s →
      decimalValue t ≡ decimalValue s [MOD fanout.toNat ^ (fanout.toNat.digits (decimalValue s)).length] →
      ∃ r, toPath t = some r ∧ fanout.toNat.digits (decimalValue s) <+: r ∧
        (fanout.toNat.digits (decimalValue s)).length + 2 ≤ r.length := by
  obtain ⟨L2, hL2, hL2', -⟩ := C31_violated fanout toPath h hf
  rw [hL, Option.some.injEq] at hL2
  subst hL2
  have hk : (fanout.toNat.digits (decimalValue s)).length ≤ L - 2 := by
    rw [Nat.digits_length_le_iff hf]; exact hn
  rw [digitPath_eq fanout toPath h]
  have hpath : ∀ t, IsDenseId t → digitPathFn fanout t = some (if (fanout.toNat.digits (decimalValue t)).length ≠ L then
      fanout.toNat.digits (decimalValue t) ++ [0] else fanout.toNat.digits (decimalValue t)) := by
    intro t ht
    obtain ⟨L', hL', hp⟩ := digitPathFn_of_parse fanout hf t ht.1 (decimalValue t)
      (parseInt32_decimal t (by rintro rfl; simpa using ht.1) (by rw [ht.1]) ht.2)
    rw [hL, Option.some.injEq] at hL'
    rw [hp, hL']
  refine ⟨?_, fun t ht hne hmod => ?_⟩
  · rw [hpath s hs, if_pos (by omega)]
  · refine ⟨_, hpath t ht, ?_⟩
    set n := decimalValue s with hnd
    set k := (fanout.toNat.digits n).length with hkd
    have hnk : n < fanout.toNat ^ k := by
      have := Nat.lt_base_pow_length_digits (b := fanout.toNat) (m := n) hf
      exact this
    have hm : decimalValue t = n + fanout.toNat ^ k * (decimalValue t / fanout.toNat ^ k) := by
      have h1 := Nat.mod_add_div (decimalValue t) (fanout.toNat ^ k)
      have h2 : decimalValue t % fanout.toNat ^ k = n := by
        rw [hmod, Nat.mod_eq_of_lt hnk]
      rw [h2] at h1
      exact h1.symm
    have hj : decimalValue t / fanout.toNat ^ k ≠ 0 := by
      intro h0
      rw [h0, mul_zero, add_zero] at hm
      exact hne hm
    have hdig : fanout.toNat.digits (decimalValue t) =
        fanout.toNat.digits n ++ fanout.toNat.digits (decimalValue t / fanout.toNat ^ k) := by
      rw [Nat.digits_append_digits (by omega), ← hm]
    have hjl : 1 ≤ (fanout.toNat.digits (decimalValue t / fanout.toNat ^ k)).length := by
      rw [Nat.one_le_iff_ne_zero, Ne, List.length_eq_zero_iff, Nat.digits_eq_nil_iff_eq_zero]
      exact hj
    rw [hdig]
    split_ifs with hl
    · refine ⟨by rw [List.append_assoc]; exact List.prefix_append _ _, ?_⟩
      simp only [List.length_append, List.length_singleton]
      omega
    · refine ⟨List.prefix_append _ _, ?_⟩
      rw [not_not] at hl
      omega

/-- C88 is violated: take a dense liability set of any supported fan-out, with the parameters that `GeneratePublicParams`
makes and an empty database.  Let `Set`s be made, panics being recovered (`h1`), then `Set` of an identifier whose number
is below `fanout^(L-2)` (nothing having been set at or below its path), and let it return.  From then on `Set` panics for
every other identifier whose number ends in the same digits to the base of the fan-out, whatever is done in between. -/
theorem C88_violated {E : Curve G1 G2 GT} (hE : E.Lawful) {env : Env} (henv : env.Lawful) (α α' : Zr)
    (fanOut : UInt16) (hf : 2 ≤ fanOut.toNat) (id2Path : Str → Option (List ℕ)) (pp : PublicParams G1 G2 GT)
    (hgen : generatePublicParams E α fanOut .dense = some (id2Path, pp)) (L : ℕ) (hL : digitPathLen fanOut = some L)
    (s : Str) (hs : IsDenseId s) (hn : decimalValue s < fanOut.toNat ^ (L - 2)) (h1 : List (Str × ℤ))
    (hh1 : ∀ e ∈ h1, ∀ p ps, id2Path e.1 = some p → id2Path s = some ps → ¬ ps <+: p) (a : ℤ)
    (ls1 : LiabilitySet G1 G2 GT)
    (hset : ((newLiabilitySet E α' pp (fun _ => []) id2Path).attempts E env h1).setR E env s a = (true, ls1))
    (h2 : List (Str × ℤ)) (t : Str) (ht : IsDenseId t) (hne : decimalValue t ≠ decimalValue s)
    (hmod : decimalValue t ≡ decimalValue s [MOD fanOut.toNat ^ (fanOut.toNat.digits (decimalValue s)).length]) (n : ℤ) :
    ((ls1.attempts E env h2).setR E env t n).1 = false := by
  have hdp : digitPath fanOut = some id2Path := by
    cases hd : digitPath fanOut with
    | none => rw [(C54_unsupported E α fanOut).2.1 hd] at hgen; cases hgen
    | some f =>
      obtain ⟨_, _, _, h3, _⟩ := C54_dense E α fanOut f hd hf
      rw [hgen, Option.some.injEq, Prod.mk.injEq] at h3
      rw [h3.1]
  obtain ⟨L', pp', hL', h3, hfit⟩ := C54_dense E α fanOut id2Path hdp hf
  rw [hgen, Option.some.injEq, Prod.mk.injEq] at h3
  obtain ⟨-, rfl⟩ := h3
  obtain ⟨hns, hid, -⟩ := C54_new_set E α α' _ L' pp hfit (fun _ => []) id2Path
  obtain ⟨hp, hother⟩ := dense_short_path fanOut id2Path hdp hf L hL s hs hn
  obtain ⟨r, hr, hq, hlen⟩ := hother t ht hne hmod
  have hb := hns.tree.bound
  refine C88_shorter_path_blocks hE henv (newLiabilitySet E α' pp (fun _ => []) id2Path) hns.tree.root (fun _ => rfl)
    ?_ ?_ ?_ (fanOut.toNat.digits (decimalValue s)) 0 h1 ?_ s a (by rw [hid]; exact hp) ls1 hset h2 t n r
    (by rw [hid]; exact hr) hq hlen
  · rw [hns.tree.fanOut, hns.tree.pp]
    show fanOut.toNat ≤ fanOut.toNat + 2
    omega
  · rw [hns.tree.fanOut]; omega
  · intro id p hp x hx
    rw [hid, digitPath_eq fanOut id2Path hdp] at hp
    exact digitPathFn_lt fanOut hf id p hp x hx
  · intro e he p hpe
    rw [hid] at hpe
    exact hh1 e he p _ hpe hp

/-- The identifier "000000000" is a dense identifier with the path `[0]`, and any other dense identifier has a longer
path. -/
theorem dense_zero (fanout : UInt16) (toPath : Str → Option (List ℕ)) (h : digitPath fanout = some toPath)
    (hf : 2 ≤ fanout.toNat) :
    toPath (List.replicate 9 '0') = some [0] ∧ IsDenseId (List.replicate 9 '0') ∧ decimalValue (List.replicate 9 '0') = 0 :=
  ⟨(C30_negative_numbers_alias_zero fanout toPath h hf (List.replicate 8 '0') (by simp) (by unfold IsDecimal; decide)).2,
    ⟨by simp, by unfold IsDecimal; decide⟩, by unfold decimalValue; decide⟩

/-- The path function that `GeneratePublicParams` returns for dense trees, and what its parameters fit. -/
theorem dense_params (E : Curve G1 G2 GT) (α : Zr) (fanOut : UInt16) (hf : 2 ≤ fanOut.toNat)
    (id2Path : Str → Option (List ℕ)) (pp : PublicParams G1 G2 GT)
    (hgen : generatePublicParams E α fanOut .dense = some (id2Path, pp)) :
    digitPath fanOut = some id2Path ∧ ∃ L, digitPathLen fanOut = some L ∧ Fits E α fanOut.toNat L pp := by
  have hdp : digitPath fanOut = some id2Path := by
    cases hd : digitPath fanOut with
    | none => rw [(C54_unsupported E α fanOut).2.1 hd] at hgen; cases hgen
    | some f =>
      obtain ⟨_, _, _, h3, _⟩ := C54_dense E α fanOut f hd hf
      rw [hgen, Option.some.injEq, Prod.mk.injEq] at h3
      rw [h3.1]
  obtain ⟨L', pp', hL', h3, hfit⟩ := C54_dense E α fanOut id2Path hdp hf
  rw [hgen, Option.some.injEq, Prod.mk.injEq] at h3
  obtain ⟨-, rfl⟩ := h3
  exact ⟨hdp, L', hL', hfit⟩

/-- C88 is violated from the first call on: in a new dense set of any supported fan-out, with an empty database, `Set` of
"000000000" returns, and then `Set` of any other nine-digit identifier panics, at once and whatever is done in between. -/
theorem C88_violated_by_zero {E : Curve G1 G2 GT} (hE : E.Lawful) {env : Env} (henv : env.Lawful) (α α' : Zr)
    (fanOut : UInt16) (hf : 2 ≤ fanOut.toNat) (id2Path : Str → Option (List ℕ)) (pp : PublicParams G1 G2 GT)
    (hgen : generatePublicParams E α fanOut .dense = some (id2Path, pp)) (a : ℤ) (ha : 0 ≤ a) :
    ∃ ls1, (newLiabilitySet E α' pp (fun _ => []) id2Path).set E env (List.replicate 9 '0') a = some ls1 ∧
      ∀ t, IsDenseId t → t ≠ List.replicate 9 '0' → ∀ n,
        ls1.set E env t n = none ∧ ∀ h2, ((ls1.attempts E env h2).setR E env t n).1 = false := by
  obtain ⟨hdp, L, hL, hfit⟩ := dense_params E α fanOut hf id2Path pp hgen
  obtain ⟨hns, hid, -⟩ := C54_new_set E α α' _ L pp hfit (fun _ => []) id2Path
  obtain ⟨hz, hzd, hz0⟩ := dense_zero fanOut id2Path hdp hf
  have hL2 := hfit.depth
  obtain ⟨ls1, -, -, -, -, hset, -⟩ := first_short hE henv hns.tree (List.replicate 9 '0') 0 (by omega)
    (by rw [hid]; exact hz) a ha
  refine ⟨ls1, hset, fun t ht hne n => ?_⟩
  have hall : ∀ h2, ((ls1.attempts E env h2).setR E env t n).1 = false := by
    intro h2
    refine C88_violated hE henv α α' fanOut hf id2Path pp hgen L hL (List.replicate 9 '0') hzd ?_ [] (by simp) a ls1
      ((setR_iff E env _ _ _ _).2 hset) h2 t ht ?_ ?_ n
    · rw [hz0]; exact Nat.pow_pos (by omega)
    · intro h
      exact hne (decimalValue_inj t _ ht.2 hzd.2 (by rw [ht.1, hzd.1]) h)
    · rw [hz0, Nat.digits_zero, List.length_nil, pow_zero]
      exact Nat.modEq_one
  refine ⟨?_, hall⟩
  cases hs : ls1.set E env t n with
  | none => rfl
  | some ls2 =>
    have := (setR_iff E env _ _ _ _).2 hs
    have h0 := hall []
    rw [attempts_nil, this] at h0
    cases h0

/-- C88 is violated the other way round, for any path function: after any history of `Set`s of identifiers with paths of
full length, `Set` of an identifier with the path `[c]` returns.  Then `Get` panics for every identifier of the history
whose path begins with `c`, and `ProveTot` states a total without the amounts of these identifiers. -/
theorem C88_violated_shorter_after {E : Curve G1 G2 GT} (hE : E.Lawful) {env : Env} (henv : env.Lawful) {α : Zr} {F L : ℕ}
    {ls ls' : LiabilitySet G1 G2 GT} (h : NewSet E α F L ls) (hist : List (Str × ℤ)) (hne : hist ≠ [])
    (hids : ValidIds ls.tree.id2Path F L hist) (hr : ls.sets E env hist = some ls') (id : Str) (c : ℕ) (hc : c < F)
    (hid : ls.tree.id2Path id = some [c]) (a : ℤ) (ha : 0 ≤ a)
    (hbound : totalAmount (byPath ls.tree.id2Path hist) + a < 2 ^ 63) :
    ∃ ls'', ls'.set E env id a = some ls'' ∧
      (∀ e ∈ hist, ∀ rest, ls.tree.id2Path e.1 = some (c :: rest) → ls''.get E env e.1 = none) ∧
      ∃ tp, ls''.proveTot E = some tp ∧ tp.sum =
        totalAmount (byPath ls.tree.id2Path hist) - amountBelow (byPath ls.tree.id2Path hist) [c] + a := by
  have hL := h.pp.depth
  obtain ⟨ls'', x, v, u, hset, hpp, hidp, hx, hsum, hv, -, hu, hud, v0, hv0, hdesc⟩ :=
    set_over_root hE henv h hist hne hids hr id c hc hid a ha
  obtain ⟨hn, t, s, hputs, htree⟩ := (sets_iff E env hist ls ls').1 hr
  refine ⟨ls'', hset, fun e he rest hrest => ?_, ?_⟩
  · obtain ⟨q, hq, hqL, -⟩ := hids e he
    rw [hrest, Option.some.injEq] at hq
    subst hq
    obtain ⟨d, rest', rfl⟩ : ∃ d rest', rest = d :: rest' := by
      cases rest with
      | nil => simp at hqL; omega
      | cons d rest' => exact ⟨d, rest', rfl⟩
    obtain ⟨vs, hget, -⟩ := get_onPath hE henv h.tree (by omega) hist hids hputs e.1 _ hrest hqL (by
      unfold byPath
      rw [List.map_map, List.mem_map]
      exact ⟨e, he, by simp [hrest]⟩)
    have hid' : ls'.tree.id2Path = ls.tree.id2Path := by
      rw [htree]
      obtain ⟨t1, s1, g1, g2, -⟩ := puts_good hE henv α F h.tree.bound.le ls.tree h.tree.pp h.tree.fanOut
        h.tree.root L (by omega) hist ls.s hids
      rw [hputs, Option.some.injEq, Prod.mk.injEq] at g1
      rw [← g1.1] at g2
      show t.id2Path = _
      rw [g2]
    have hget' : ls'.tree.get E env e.1 ls'.s.db = some (some (latest (byPath ls.tree.id2Path hist) (c :: d :: rest'), vs)) := by
      rw [htree]; exact hget
    have := get_through_leaf E env ls'.tree ls''.tree ls'.s.db ls''.s.db e.1 c d rest' (by rw [hid']; exact hrest)
      (by rw [hidp]; exact hrest) hget' hv0 hv hu hud hdesc
    unfold LiabilitySet.get
    rw [this]
    rfl
  · have hnn : ∀ p, 0 ≤ latest (byPath ls.tree.id2Path hist) p := latest_nonneg (byPath_nonneg hn)
    have hle : amountBelow (byPath ls.tree.id2Path hist) [c] ≤ totalAmount (byPath ls.tree.id2Path hist) := by
      unfold amountBelow totalAmount
      exact Finset.sum_le_sum_of_subset_of_nonneg (Finset.filter_subset _ _) fun p _ _ => hnn p
    have h0 : 0 ≤ amountBelow (byPath ls.tree.id2Path hist) [c] := Finset.sum_nonneg fun p _ => hnn p
    exact proveTot_of_root hE (by rw [hpp]; exact h.pp) hx hsum (by omega) (by omega)

/-- C88, what holds of it: nine-digit identifiers whose numbers are at least `fanout^(L-2)` (all have paths of full length)
can be used together: every `Set` with a non-negative amount returns, and `Get` gives the amount last set.  Missing: the
identifiers with smaller numbers (see the violations). -/
theorem C88_full_depth_partial {E : Curve G1 G2 GT} (hE : E.Lawful) {env : Env} (henv : env.Lawful) (α α' : Zr)
    (fanOut : UInt16) (hf : 2 ≤ fanOut.toNat) (id2Path : Str → Option (List ℕ)) (pp : PublicParams G1 G2 GT)
    (hgen : generatePublicParams E α fanOut .dense = some (id2Path, pp)) (L : ℕ) (hL : digitPathLen fanOut = some L)
    (db : Db) (hist : List (Str × ℤ))
    (hids : ∀ e ∈ hist, IsDenseId e.1 ∧ fanOut.toNat ^ (L - 2) ≤ decimalValue e.1 ∧ 0 ≤ e.2) :
    ∃ ls', (newLiabilitySet E α' pp db id2Path).sets E env hist = some ls' ∧
      ∀ id, IsDenseId id → fanOut.toNat ^ (L - 2) ≤ decimalValue id → ls'.get E env id = some (lastPut hist id) := by
  obtain ⟨hdp, L', hL', hfit⟩ := dense_params E α fanOut hf id2Path pp hgen
  rw [hL, Option.some.injEq] at hL'
  subst hL'
  obtain ⟨hns, hid, -⟩ := C54_new_set E α α' _ L pp hfit db id2Path
  have hpath : ∀ s, IsDenseId s → fanOut.toNat ^ (L - 2) ≤ decimalValue s →
      ∃ p, id2Path s = some p ∧ p.length = L ∧ ∀ x ∈ p, x < fanOut.toNat := by
    intro s hs hge
    obtain ⟨p, hp, hlt, -⟩ := C30_dense_paths fanOut id2Path hdp hf s hs
    exact ⟨p, hp, (C31_full_depth_iff_partial fanOut id2Path hdp hf L hL s hs p hp).2 hge, hlt⟩
  have hv : ValidIds (newLiabilitySet E α' pp db id2Path).tree.id2Path fanOut.toNat L hist := by
    intro e he
    rw [hid]
    exact hpath e.1 (hids e he).1 (hids e he).2.1
  obtain ⟨ls', hls'⟩ := C43_sets_return hE henv hns hist hv fun e he => (hids e he).2.2
  refine ⟨ls', hls', fun id hd hge => ?_⟩
  obtain ⟨p, hp, hpL, -⟩ := hpath id hd hge
  refine C43_get_latest hE henv hns hist hv hls' id p (by rw [hid]; exact hp) hpL fun e he heq => ?_
  rw [hid] at heq
  by_contra hne
  obtain ⟨p1, p2, h1, h2, h3⟩ := C30_dense_paths_distinct fanOut id2Path hdp hf e.1 id (hids e he).1 hd hne
  rw [h1, h2, Option.some.injEq] at heq
  exact h3 heq

/-! ## C89: a `Set` that panics changes nothing -/

/-- C89: the calls that return are those of `Set`, and leave what it leaves. -/
theorem C89_completed_calls (E : Curve G1 G2 GT) (env : Env) (ls ls' : LiabilitySet G1 G2 GT) (id : Str) (n : ℤ) :
    ls.setR E env id n = (true, ls') ↔ ls.set E env id n = some ls' := setR_iff E env ls ls' id n

/-- C89, what holds of it: a `Set` that panics because the amount is negative, or because the identifier has no path,
changes nothing.  Missing: the other panics (see the violation). -/
theorem C89_rejected_input_partial (E : Curve G1 G2 GT) (env : Env) (ls : LiabilitySet G1 G2 GT) (id : Str) (n : ℤ)
    (h : n < 0 ∨ ls.tree.id2Path id = none) : ls.setR E env id n = (false, ls) := by
  rcases setR_cases E env ls id n with ⟨h1, -⟩ | ⟨path, h1, h2, -⟩
  · exact h1
  · rcases h with h | h
    · omega
    · rw [h] at h2; cases h2

/-- C89, what holds of it: whatever the state and whether `Set` panics or not, what `Get` returned before for an
identifier whose path is neither a beginning nor a continuation of the path written, it returns afterwards.  Missing: the
identifier written itself, whose amount may have changed although `Set` panicked, and the total (see the violation). -/
theorem C89_others_kept_partial {E : Curve G1 G2 GT} (hE : E.Lawful) {env : Env} (henv : env.Lawful)
    (ls : LiabilitySet G1 G2 GT) (id id' : Str) (n : ℤ) (p p' : List ℕ) (hp : ls.tree.id2Path id = some p)
    (hp' : ls.tree.id2Path id' = some p') (h1 : ¬ p <+: p') (h2 : ¬ p' <+: p) (r : Option ℤ)
    (hget : ls.get E env id' = some r) : (ls.setR E env id n).2.get E env id' = some r := by
  obtain ⟨f1, -⟩ := setR_fields E env ls id n
  rcases setR_cases E env ls id n with ⟨e1, -⟩ | ⟨path, hn, hpath, -, e2, e3, -⟩
  · rw [e1]; exact hget
  · rw [hp, Option.some.injEq] at hpath
    subst hpath
    obtain ⟨v', hv'⟩ : ∃ v', (ls.setR E env id n).2.tree.root = some v' := by
      unfold LiabilitySet.setR Verkle.Tree.putR
      rw [if_neg (by omega), hp]
      exact ⟨_, rfl⟩
    have htop : v' = top (ls.setR E env id n).2 := by unfold top; rw [hv']; rfl
    have hid' : (ls.setR E env id n).2.tree.id2Path id' = some p' := by rw [f1]; exact hp'
    rw [lget_iff E env _ id' p' v' hid' hv', htop, e2, e3]
    obtain ⟨hk, hkept⟩ := putAtR_kept hE henv ls.tree.PP ls.tree.fanOut (some (.amount n)) p (keyOf []) (top ls) ls.s
    have hne : p' ≠ [] := by rintro rfl; exact h2 List.nil_prefix
    have hold : (r = none ∧ getAt p' (top ls) = none) ∨
        ∃ m us, r = some m ∧ getAt p' (top ls) = some (some (.amount m), us) ∧ ∀ u ∈ us, Fetched E ls.s.db u := by
      cases hroot : ls.tree.root with
      | none =>
        left
        have ht := top_fresh hroot
        obtain ⟨c, t, rfl⟩ := List.exists_cons_of_ne_nil hne
        refine ⟨?_, by rw [ht, getAt]; rfl⟩
        have hg : ls.get E env id' = some none := by
          unfold LiabilitySet.get Verkle.Tree.get Sparse.Tree.get
          simp [Tree.sparse, hroot, hp']
        rw [hg, Option.some.injEq] at hget
        exact hget.symm
      | some v =>
        have ht : top ls = v := by unfold top; rw [hroot]; rfl
        rw [ht]
        exact (lget_iff E env ls id' p' v hp' hroot r).1 hget
    rcases hold with ⟨hr, hnone⟩ | ⟨m, us, hr, hsome, hus⟩
    · left
      refine ⟨hr, ?_⟩
      have hoff := find_putAtR_off ls.tree.fanOut (updateInnerVertexR E ls.tree.PP env) (some (.amount n)) p (keyOf [])
        (top ls) ls.s p' h2
      have i1 := getAt_isSome_iff p' (top ls)
      rw [hnone] at i1
      have i2 := getAt_isSome_iff p' (putAtR ls.tree.fanOut (updateInnerVertexR E ls.tree.PP env) (some (.amount n)) p
        (keyOf []) (top ls) ls.s).vertex
      rw [← Option.not_isSome_iff_eq_none, i2]
      rw [← Option.isSome_map (f := fun u : Sparse.Vertex Data => (u.key, u.data)), hoff, Option.isSome_map, ← i1]
      simp
    · right
      obtain ⟨us', g1, g2⟩ := hkept p' _ us h1 h2 hsome hus
      exact ⟨m, us', hr, g1, g2⟩

/-- C89 is violated, for any path function: in a new set let `Set` of an identifier with the path `[c]` return, and let
`c' ≠ c` begin a longer path.  `Set` of an identifier with that path panics; but afterwards `Get`, which did not find it
before, returns the amount, and `ProveTot` states a total that includes it. -/
theorem C89_violated {E : Curve G1 G2 GT} (hE : E.Lawful) {env : Env} (henv : env.Lawful) {α : Zr} {F L : ℕ}
    {ls : LiabilitySet G1 G2 GT} (h : NewSet E α F L ls) (id id' : Str) (c c' : ℕ) (rest : List ℕ) (hc : c < F)
    (hid : ls.tree.id2Path id = some [c]) (hid' : ls.tree.id2Path id' = some (c' :: rest)) (hne : c ≠ c')
    (hrest : rest ≠ []) (hp : ∀ x ∈ c' :: rest, x < F) (a n : ℤ) (ha : 0 ≤ a) (hn : 0 ≤ n) (hbound : a + n < 2 ^ 63) :
    ∃ ls1 ls2 tp1 tp2, ls.set E env id a = some ls1 ∧ ls1.setR E env id' n = (false, ls2) ∧
      ls1.get E env id' = some none ∧ ls2.get E env id' = some (some n) ∧
      ls1.proveTot E = some tp1 ∧ tp1.sum = a ∧ ls2.proveTot E = some tp2 ∧ tp2.sum = a + n := by
  obtain ⟨ls1, ls2, x1, x2, k1, k2, k3, k4, k5, k6, k7, k8, k9, k10⟩ :=
    set_beside_leaf hE henv h.tree id id' c c' rest hc hid hid' hne hrest hp a n ha hn
  obtain ⟨tp1, t1, t2⟩ := proveTot_of_root hE (ls := ls1) (by rw [k5]; exact h.pp) k7 k8 ha (by omega)
  obtain ⟨tp2, t3, t4⟩ := proveTot_of_root hE (ls := ls2) (by rw [k6]; exact h.pp) k9 k10 (by omega) hbound
  exact ⟨ls1, ls2, tp1, tp2, k1, k3, k2, k4, t1, t2, t3, t4⟩

/-- C89 is violated in dense sets: after `Set` of "000000000" in a new set, a `Set` of any nine-digit identifier whose
number is not a multiple of the fan-out panics, but `Get` and `ProveTot` have it. -/
theorem C89_violated_dense {E : Curve G1 G2 GT} (hE : E.Lawful) {env : Env} (henv : env.Lawful) (α α' : Zr)
    (fanOut : UInt16) (hf : 2 ≤ fanOut.toNat) (id2Path : Str → Option (List ℕ)) (pp : PublicParams G1 G2 GT)
    (hgen : generatePublicParams E α fanOut .dense = some (id2Path, pp)) (db : Db) (id : Str) (hid : IsDenseId id)
    (hmod : decimalValue id % fanOut.toNat ≠ 0) (a n : ℤ) (ha : 0 ≤ a) (hn : 0 ≤ n) (hbound : a + n < 2 ^ 63) :
    ∃ ls1 ls2 tp1 tp2, (newLiabilitySet E α' pp db id2Path).set E env (List.replicate 9 '0') a = some ls1 ∧
      ls1.setR E env id n = (false, ls2) ∧ ls1.get E env id = some none ∧ ls2.get E env id = some (some n) ∧
      ls1.proveTot E = some tp1 ∧ tp1.sum = a ∧ ls2.proveTot E = some tp2 ∧ tp2.sum = a + n := by
  obtain ⟨hdp, L, hL, hfit⟩ := dense_params E α fanOut hf id2Path pp hgen
  obtain ⟨hns, hidp, -⟩ := C54_new_set E α α' _ L pp hfit db id2Path
  obtain ⟨hz, hzd, hz0⟩ := dense_zero fanOut id2Path hdp hf
  obtain ⟨p, hp, hlt, hval⟩ := C30_dense_paths fanOut id2Path hdp hf id hid
  obtain ⟨r, hr, -, hlen⟩ := (dense_short_path fanOut id2Path hdp hf L hL (List.replicate 9 '0') hzd
    (by rw [hz0]; exact Nat.pow_pos (by omega))).2 id hid (by rw [hz0]; rintro h0; rw [h0] at hmod; simp at hmod)
    (by rw [hz0, Nat.digits_zero, List.length_nil, pow_zero]; exact Nat.modEq_one)
  rw [hp, Option.some.injEq] at hr
  subst hr
  match p, hp, hlt, hval, hlen with
  | [], _, _, _, hlen => simp at hlen
  | [_], _, _, _, hlen => simp at hlen
  | c' :: d :: rest, hp, hlt, hval, _ =>
    refine C89_violated hE henv hns (List.replicate 9 '0') id 0 c' (d :: rest) (by omega) (by rw [hidp]; exact hz)
      (by rw [hidp]; exact hp) ?_ (by simp) hlt a n ha hn hbound
    rintro rfl
    apply hmod
    rw [← hval, Nat.ofDigits_cons]
    simp

/-! ## A concrete case: fan-out 3 over the toy curve -/

example : ∃ f pp ls1 ls2 tp, generatePublicParams toyCurve 2 3 .dense = some (f, pp) ∧
    (newLiabilitySet toyCurve 3 pp (fun _ => []) f).set toyCurve toyEnv (List.replicate 9 '0') 7 = some ls1 ∧
    ls1.setR toyCurve toyEnv "123456790".toList 5 = (false, ls2) ∧ ls2.get toyCurve toyEnv "123456790".toList = some (some 5) ∧
    ls2.proveTot toyCurve = some tp ∧ tp.sum = 12 := by
  obtain ⟨f, hf⟩ := (C30_supported_fanouts 3).2 ⟨2, by norm_num, by norm_num, rfl⟩
  obtain ⟨L, pp, -, hgen, -⟩ := C54_dense toyCurve 2 3 f hf (by decide)
  obtain ⟨ls1, ls2, tp1, tp2, h1, h2, -, h4, -, -, h7, h8⟩ := C89_violated_dense toyCurve_lawful toyEnv_lawful 2 3 3
    (by decide) f pp hgen (fun _ => []) "123456790".toList ⟨by decide, by unfold IsDecimal; decide⟩
    (by unfold decimalValue; decide) 7 5 (by norm_num) (by norm_num) (by norm_num)
  exact ⟨f, pp, ls1, ls2, tp2, hgen, h1, h2, h4, h7, h8⟩

end PoL.Props
