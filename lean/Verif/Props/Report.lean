import Verif.Proofs.Report
import Verif.Props.Bench

/-!
# C91: the lines that the benchmark prints at its end
-/

set_option linter.unusedSectionVars false

namespace PoL.Props

open BP Spec Verkle Pol Bench

variable {G1 G2 GT : Type} [AddCommGroup G1] [Module Zr G1] [AddCommGroup G2] [Module Zr G2]
  [AddCommGroup GT] [Module Zr GT] [DecidableEq G1] [DecidableEq GT]

/-! ## Numbers can be read back -/

theorem decimal_chars (x : ℤ) (c : Char) (h : c ∈ decimal x) : c = '-' ∨ c.isDigit = true := by
  unfold decimal at h
  split_ifs at h
  · rcases List.mem_cons.1 h with h | h
    · exact Or.inl h
    · exact Or.inr (isDecimal_toDigits _ c h)
  · exact Or.inr (isDecimal_toDigits _ c h)

theorem decimal_injective {x y : ℤ} (h : decimal x = decimal y) : x = y := by
  have no : ∀ (n : ℕ) (l : Str), Nat.toDigits 10 n ≠ '-' :: l := by
    intro n l hl
    have := isDecimal_toDigits n '-' (by rw [hl]; exact List.mem_cons_self)
    exact absurd this (by decide)
  have inj : ∀ {a b : ℕ}, Nat.toDigits 10 a = Nat.toDigits 10 b → a = b := by
    intro a b hab
    rw [← decimalValue_toDigits a, hab, decimalValue_toDigits]
  unfold decimal at h
  split_ifs at h with h1 h2 h2
  · have := inj (List.cons.inj h).2
    omega
  · exact absurd h.symm (no _ _)
  · exact absurd h (no _ _)
  · have := inj h
    omega

theorem cut_at {c : Char} : ∀ {a b s t : Str}, c ∉ a → c ∉ b → a ++ c :: s = b ++ c :: t → a = b ∧ s = t
  | [], [], _, _, _, _, h => ⟨rfl, (List.cons.inj h).2⟩
  | [], y :: b, _, _, _, hb, h => absurd (List.cons.inj h).1 (fun e => hb (by rw [e]; exact List.mem_cons_self))
  | x :: a, [], _, _, ha, _, h => absurd (List.cons.inj h).1 (fun e => ha (by rw [← e]; exact List.mem_cons_self))
  | x :: a, y :: b, s, t, ha, hb, h => by
    obtain ⟨h1, h2⟩ := List.cons.inj h
    obtain ⟨h3, h4⟩ := cut_at (fun hc => ha (List.mem_cons_of_mem _ hc)) (fun hc => hb (List.mem_cons_of_mem _ hc)) h2
    exact ⟨by rw [h1, h3], h4⟩

/-- **C91.** The fan-outs and numbers of a line can be read back from it: different measurements give different lines. -/
theorem C91_readable : ∀ l l' : List (UInt16 × Int64), pairs l = pairs l' → l = l' := by
  have no : ∀ (x : ℤ) (c : Char), c ≠ '-' → c.isDigit = false → c ∉ decimal x := by
    intro x c h1 h2 hc
    rcases decimal_chars x c hc with h | h
    · exact h1 h
    · rw [h] at h2; cases h2
  have cons : ∀ (e : UInt16 × Int64) (l : List (UInt16 × Int64)), pairs (e :: l)
      = '(' :: (decimal (e.1.toNat : ℤ) ++ ',' :: (' ' :: (decimal e.2.toInt ++ ')' :: pairs l))) := by
    intro e l
    unfold pairs
    simp [List.flatMap_cons]
  intro l
  induction l with
  | nil =>
    intro l' h
    cases l' with
    | nil => rfl
    | cons e l' => rw [cons] at h; cases h
  | cons e l ih =>
    intro l' h
    cases l' with
    | nil => rw [cons] at h; cases h
    | cons e' l' =>
      rw [cons, cons] at h
      obtain ⟨h1, h2⟩ := cut_at (no _ _ (by decide) (by decide)) (no _ _ (by decide) (by decide)) (List.cons.inj h).2
      obtain ⟨h3, h4⟩ := cut_at (no _ _ (by decide) (by decide)) (no _ _ (by decide) (by decide)) (List.cons.inj h2).2
      have e1 : e.1 = e'.1 := UInt16.toNat_inj.1 (by exact_mod_cast decimal_injective h1)
      have e2 : e.2 = e'.2 := Int64.toInt_inj.1 (decimal_injective h3)
      rw [ih l' h4, Prod.ext e1 e2]

/-! ## What is measured -/

/-- The measurements of one fan-out. -/
theorem measurements_iff (E : Curve G1 G2 GT) (env : Env) (parallel : Bool) (iterations : ℤ) (numIds : ℕ) (treeType : TreeType)
    (ppDraws : ℕ → Zr) (d : Draws) (c : Clocks) (fanOut : UInt16) (m : Measurement) :
    measurements E env parallel iterations numIds treeType ppDraws d c fanOut = some m ↔
      ∃ ppSize sizes es, measurePPGen E treeType ((List.range iterations.toNat).map ppDraws) fanOut = some ppSize ∧
        benchmarkFanout E env iterations numIds treeType d fanOut = some sizes ∧ sizes.length = iterations.toNat ∧
        es.length = iterations.toNat ∧ es.map Entry.size = sizes ∧
        (∀ i < iterations.toNat, ∃ z, es[i]? = some (entry parallel (measuredLength E treeType d fanOut i) (c.prove i) (c.verify i) z)) ∧
        m = Measurement.append { ppGenTime := (List.range iterations.toNat).map fun i => since (c.ppGen i).1 (c.ppGen i).2
                                 ppSize := ppSize } es := by
  have hpath : ∀ sizes, benchmarkFanout E env iterations numIds treeType d fanOut = some sizes →
      sizes.length = iterations.toNat ∧ ∃ id2Path pp, generatePublicParams E d.α fanOut treeType = some (id2Path, pp) ∧
        ∀ i < iterations.toNat, ∃ q, id2Path (idGen treeType (d.measured i)) = some q := by
    intro sizes h
    unfold benchmarkFanout at h
    obtain ⟨⟨id2Path, pp⟩, hg, h⟩ := obind_elim h
    dsimp only at h
    obtain ⟨ls1, -, h⟩ := obind_elim h
    split_ifs at h
    obtain ⟨ls2, -, h⟩ := obind_elim h
    obtain ⟨⟨r, ls3⟩, -, h⟩ := obind_elim h
    dsimp only at h
    obtain ⟨sz, hsz, h⟩ := obind_elim h
    obtain ⟨_, -, h⟩ := obind_elim h
    rw [Option.pure_def, Option.some.injEq] at h
    subst h
    have hl := mapM_length _ _ _ hsz
    rw [List.length_range] at hl
    refine ⟨hl, id2Path, pp, hg, fun i hi => ?_⟩
    have hm := mapM_getElem _ _ _ hsz i i (List.getElem?_range hi)
    rw [List.getElem?_eq_getElem (by omega)] at hm
    unfold Bench.measure at hm
    obtain ⟨o, -, hm⟩ := obind_elim hm
    cases o with
    | none => exact absurd hm (by simp)
    | some mp =>
      dsimp only at hm
      obtain ⟨_, -, hm⟩ := obind_elim hm
      obtain ⟨_, -, hm⟩ := obind_elim hm
      obtain ⟨b, hv, hm⟩ := obind_elim hm
      unfold LiabilityProof.verify at hv
      obtain ⟨q, hq, -⟩ := obind_elim hv
      exact ⟨q, hq⟩
  unfold measurements
  constructor
  · intro h
    obtain ⟨ppSize, hpp, h⟩ := obind_elim h
    obtain ⟨sizes, hs, h⟩ := obind_elim h
    obtain ⟨⟨i2p, pp'⟩, hg', h⟩ := obind_elim h
    obtain ⟨hl, id2Path, pp, hg, hq⟩ := hpath sizes hs
    rw [hg, Option.some.injEq, Prod.mk.injEq] at hg'
    obtain ⟨rfl, rfl⟩ := hg'
    obtain ⟨es, hes, rfl⟩ := (foldlM_record parallel (fun i => id2Path (idGen treeType (d.measured i))) sizes c _ _ _).1 h
    have hel := mapM_length _ _ _ hes
    rw [List.length_range] at hel
    have hget : ∀ i < iterations.toNat, ∃ z, sizes[i]? = some z ∧
        es[i]? = some (entry parallel (measuredLength E treeType d fanOut i) (c.prove i) (c.verify i) z) := by
      intro i hi
      have he := mapM_getElem _ _ _ hes i i (List.getElem?_range hi)
      rw [List.getElem?_eq_getElem (l := es) (by omega)] at he
      obtain ⟨q, hq, he⟩ := obind_elim he
      obtain ⟨z, hz, he⟩ := obind_elim he
      refine ⟨z, hz, ?_⟩
      rw [List.getElem?_eq_getElem (l := es) (by omega), ← he]
      unfold measuredLength
      rw [hg, Option.bind_some, show (id2Path, pp).1 (idGen treeType (d.measured i)) = some q from hq]
      rfl
    refine ⟨ppSize, sizes, es, hpp, hs, hl, hel, ?_, fun i hi => (hget i hi).imp fun z h => h.2, rfl⟩
    apply List.ext_getElem?
    intro i
    by_cases hi : i < iterations.toNat
    · obtain ⟨z, h1, h2⟩ := hget i hi
      rw [List.getElem?_map, h2, h1]
      rfl
    · rw [List.getElem?_eq_none (by simp; omega), List.getElem?_eq_none (by omega)]
  · rintro ⟨ppSize, sizes, es, hpp, hs, hl, hel, hsz, hget, rfl⟩
    obtain ⟨-, id2Path, pp, hg, hq⟩ := hpath sizes hs
    refine obind_step hpp (obind_step hs (obind_step hg ?_))
    refine (foldlM_record parallel (fun i => id2Path (idGen treeType (d.measured i))) sizes c _ _ _).2 ⟨es, ?_, rfl⟩
    have hz : ∀ i < iterations.toNat, es[i]? = some (es.getD i ⟨0, 0, 0, 0, 0, 0, 0⟩) := by
      intro i hi
      rw [List.getD_eq_getElem?_getD, List.getElem?_eq_getElem (by omega)]
      rfl
    have := mapM_some_of (List.range iterations.toNat) (fun i => (do
        return entry parallel (← id2Path (idGen treeType (d.measured i))).length (c.prove i) (c.verify i) (← sizes[i]?) : Option Entry))
      (fun i => es.getD i ⟨0, 0, 0, 0, 0, 0, 0⟩) fun i hi => ?_
    · rw [this, Option.some.injEq]
      apply List.ext_getElem?
      intro i
      by_cases hi : i < iterations.toNat
      · rw [List.getElem?_map, List.getElem?_range hi, hz i hi]
        rfl
      · rw [List.getElem?_eq_none (by simp; omega), List.getElem?_eq_none (by omega)]
    · have hi := List.mem_range.1 hi
      obtain ⟨q, hq⟩ := hq i hi
      obtain ⟨z, hz'⟩ := hget i hi
      have hsz' : sizes[i]? = some z := by rw [← hsz, List.getElem?_map, hz']; rfl
      rw [hq, hsz']
      have e := hz i hi
      rw [hz', Option.some.injEq] at e
      rw [← e]
      unfold measuredLength
      rw [hg, Option.bind_some, show (id2Path, pp).1 (idGen treeType (d.measured i)) = some q from hq]
      rfl

theorem benchmark_length {E : Curve G1 G2 GT} {env : Env} {iterations : ℤ} {numIds : ℕ} {treeType : TreeType}
    {d : Draws} {fanOut : UInt16} {sizes : List Int64} (h : benchmarkFanout E env iterations numIds treeType d fanOut = some sizes) :
    sizes.length = iterations.toNat := by
  unfold benchmarkFanout at h
  obtain ⟨⟨id2Path, pp⟩, -, h⟩ := obind_elim h
  dsimp only at h
  obtain ⟨ls1, -, h⟩ := obind_elim h
  split_ifs at h
  obtain ⟨ls2, -, h⟩ := obind_elim h
  obtain ⟨⟨r, ls3⟩, -, h⟩ := obind_elim h
  dsimp only at h
  obtain ⟨sz, hsz, h⟩ := obind_elim h
  obtain ⟨_, -, h⟩ := obind_elim h
  rw [Option.pure_def, Option.some.injEq] at h
  rw [← h, mapM_length _ _ _ hsz, List.length_range]

/-! ## Averages -/

theorem avg_ms (n : ℕ) (h1 : 1 ≤ n) (g : ℕ → ℤ) (s : List Int64) (hlen : s.length = n)
    (hs : ∀ i < n, ∃ x, s[i]? = some x ∧ x.toInt = g i) (h0 : ∀ i < n, 0 ≤ g i) (hb : ∀ i < n, n * g i < 2 ^ 63)
    (hn : n < 2 ^ 63) :
    ∃ a, avg s = some a ∧ (milliseconds a).toInt = (∑ i ∈ Finset.range n, g i) / n / 1000000 := by
  have hmap : s.map Int64.toInt = (List.range n).map g := by
    apply List.ext_getElem?
    intro i
    by_cases hi : i < n
    · obtain ⟨x, h1, h2⟩ := hs i hi
      rw [List.getElem?_map, h1, List.getElem?_map, List.getElem?_range hi, Option.map_some, Option.map_some, h2]
    · rw [List.getElem?_eq_none (by simp; omega), List.getElem?_eq_none (by simp; omega)]
  have hsum : (s.map Int64.toInt).sum = ∑ i ∈ Finset.range n, g i := by rw [hmap]; rfl
  have hlt : (∑ i ∈ Finset.range n, g i) < 2 ^ 63 := by
    have h2 : (n : ℤ) * ∑ i ∈ Finset.range n, g i < n * 2 ^ 63 := by
      rw [Finset.mul_sum]
      have := Finset.sum_lt_sum_of_nonempty (s := Finset.range n) (f := fun i => (n : ℤ) * g i) (g := fun _ => (2 : ℤ) ^ 63)
        ⟨0, Finset.mem_range.2 (by omega)⟩ fun i hi => hb i (Finset.mem_range.1 hi)
      rwa [Finset.sum_const, Finset.card_range, nsmul_eq_mul] at this
    exact lt_of_mul_lt_mul_left h2 (by omega)
  obtain ⟨a, ha, ha', -⟩ := C71_average s (by rintro rfl; simp at hlen; omega) (fun x hx => by
      obtain ⟨i, hi⟩ := List.mem_iff_getElem?.1 hx
      obtain ⟨hi', -⟩ := List.getElem?_eq_some_iff.1 hi
      obtain ⟨y, h1, h2⟩ := hs i (by omega)
      rw [hi, Option.some.injEq] at h1
      rw [h1, h2]
      exact h0 i (by omega)) (by rw [hsum]; exact hlt) (by rw [hlen]; exact hn)
  refine ⟨a, ha, ?_⟩
  rw [hsum, hlen] at ha'
  have hpos : 0 ≤ ∑ i ∈ Finset.range n, g i := Finset.sum_nonneg fun i hi => h0 i (Finset.mem_range.1 hi)
  have q1 : 0 ≤ (∑ i ∈ Finset.range n, g i) / (n : ℤ) := Int.ediv_nonneg hpos (by omega)
  have q2 := Int.ediv_le_self (n : ℤ) hpos
  have q3 : 0 ≤ (∑ i ∈ Finset.range n, g i) / (n : ℤ) / 1000000 := Int.ediv_nonneg q1 (by omega)
  have q4 := Int.ediv_le_self 1000000 q1
  unfold milliseconds
  rw [Int64.toInt_div, ha', show (1000000 : Int64).toInt = 1000000 from rfl, Int.tdiv_eq_ediv_of_nonneg q1,
    Int.bmod_eq_of_le (by omega) (by omega)]

theorem zip_map_self {A B : Type} (l : List A) (f : A → B) : l.zip (l.map f) = l.map fun a => (a, f a) := by
  induction l with
  | nil => rfl
  | cons a l ih => rw [List.map_cons, List.zip_cons_cons, ih, List.map_cons]

/-- A line of times. -/
theorem times_eq (F : Measurement → List Int64) (z : UInt16 → Measurement) (a : UInt16 → Int64)
    (h : ∀ f ∈ fanouts, avg (F (z f)) = some (a f)) :
    times F (fanouts.map z) = some (pairs (fanouts.map fun f => (f, milliseconds (a f)))) := by
  unfold times
  rw [zip_map_self]
  have e : ((fanouts.map fun f => (f, z f)).mapM fun e : UInt16 × Measurement =>
      (do return (e.1, milliseconds (← avg (F e.2))) : Option (UInt16 × Int64)))
      = some ((fanouts.map fun f => (f, z f)).map fun e => (e.1, milliseconds (a e.1))) := by
    refine mapM_some_of _ _ _ fun e he => ?_
    obtain ⟨f, hf, rfl⟩ := List.mem_map.1 he
    dsimp only
    rw [h f hf]
    rfl
  rw [e, List.map_map]
  rfl

/-- Measurements can be averaged if they are there. -/
theorem avg_some (s : List Int64) (h : s.length ≠ 0) : ∃ a, avg s = some a := ⟨_, by unfold avg; rw [if_neg h]⟩

theorem avg_length {s : List Int64} {a : Int64} (h : avg s = some a) : s.length ≠ 0 := by
  unfold avg at h
  split_ifs at h with h0
  exact h0

theorem mapM_map {A B : Type} [Inhabited B] (f : A → Option B) : ∀ (l : List A) (r : List B), l.mapM f = some r →
    r = l.map (fun a => (f a).getD default) ∧ ∀ a ∈ l, f a = some ((f a).getD default)
  | [], r, h => by
    rw [List.mapM_nil, Option.pure_def, Option.some.injEq] at h
    exact ⟨by rw [← h]; rfl, by simp⟩
  | a :: l, r, h => by
    rw [List.mapM_cons] at h
    obtain ⟨b, hb, h⟩ := obind_elim h
    obtain ⟨bs, hbs, h⟩ := obind_elim h
    obtain ⟨h1, h2⟩ := mapM_map f l bs hbs
    rw [Option.pure_def, Option.some.injEq] at h
    refine ⟨by rw [← h, h1, List.map_cons, hb]; rfl, fun x hx => ?_⟩
    rcases List.mem_cons.1 hx with rfl | hx
    · rw [hb]; rfl
    · exact h2 x hx

/-- What has to be there for the lines to be printed. -/
theorem mainPrints_iff (E : Curve G1 G2 GT) (env : UInt16 → Env) (p : Process) (clocks : UInt16 → Clocks)
    (lines : List (String × Str)) : mainPrints E env p clocks = some lines ↔
      ∃ parallel iterations treeType z, setParallelism p.parallelism = some parallel ∧
        getIterations p.iterations = some iterations ∧ setTreeType p.treeType = some treeType ∧
        (∀ tt, ∀ f ∈ fanouts, ∃ s, measurePPGen E tt ((List.range iterations.toNat).map (p.ppDraws tt f)) f = some s) ∧
        (∀ f ∈ fanouts, measurements E (env f) parallel iterations totalPopulation treeType (p.ppDraws treeType f) (p.draws f)
          (clocks f) f = some (z f)) ∧ lastLines (fanouts.map z) = some lines := by
  have : Inhabited Measurement := ⟨{}⟩
  unfold mainPrints
  constructor
  · intro h
    obtain ⟨parallel, h1, h⟩ := obind_elim h
    obtain ⟨iterations, h2, h⟩ := obind_elim h
    obtain ⟨dense, h3, h⟩ := obind_elim h
    obtain ⟨sparse, h4, h⟩ := obind_elim h
    obtain ⟨treeType, h5, h⟩ := obind_elim h
    obtain ⟨ms, h6, h⟩ := obind_elim h
    obtain ⟨e1, e2⟩ := mapM_map _ _ _ h6
    rw [e1] at h
    refine ⟨parallel, iterations, treeType, _, h1, h2, h5, fun tt f hf => ?_, e2, h⟩
    cases tt with
    | dense => exact ⟨_, (mapM_map _ _ _ h3).2 f hf⟩
    | sparse => exact ⟨_, (mapM_map _ _ _ h4).2 f hf⟩
  · rintro ⟨parallel, iterations, treeType, z, h1, h2, h5, hpp, hz, h⟩
    have hpp' : ∀ tt, ∃ s, (fanouts.mapM fun f => measurePPGen E tt ((List.range iterations.toNat).map (p.ppDraws tt f)) f) = some s := by
      intro tt
      choose! s hs using hpp tt
      exact ⟨_, mapM_some_of _ _ s hs⟩
    obtain ⟨d, hd⟩ := hpp' .dense
    obtain ⟨sp, hsp⟩ := hpp' .sparse
    exact obind_step h1 (obind_step h2 (obind_step hd (obind_step hsp (obind_step h5 (obind_step (mapM_some_of _ _ z hz) h)))))

theorem lastLines_iff (ms : List Measurement) (lines : List (String × Str)) : lastLines ms = some lines ↔
    ∃ u1 u2 s1 s2 s3 s4 s5 s6 s7, sizeLine Measurement.ppSize ms = some u1 ∧ sizeLine Measurement.proofSize ms = some u2 ∧
      times Measurement.ppGenTime ms = some s1 ∧ times Measurement.proofTime ms = some s2 ∧
      times Measurement.verifyTime ms = some s3 ∧ times Measurement.equalityTimeProve ms = some s4 ∧
      times Measurement.sumTimeProve ms = some s5 ∧ times Measurement.equalityTimeVerify ms = some s6 ∧
      times Measurement.sumTimeVerify ms = some s7 ∧
      lines = [("PP sizes:", u1), ("Proof sizes:", u2), ("PP gen times:", s1), ("proof times:", s2), ("verify times:", s3),
        ("equality proof times:", s4), ("sum proof times:", s5), ("verify equality times:", s6), ("verify sum times:", s7)] := by
  unfold lastLines
  constructor
  · intro h
    obtain ⟨u1, g1, h⟩ := obind_elim h
    obtain ⟨u2, g2, h⟩ := obind_elim h
    obtain ⟨s1, t1, h⟩ := obind_elim h
    obtain ⟨s2, t2, h⟩ := obind_elim h
    obtain ⟨s3, t3, h⟩ := obind_elim h
    obtain ⟨s4, t4, h⟩ := obind_elim h
    obtain ⟨s5, t5, h⟩ := obind_elim h
    obtain ⟨s6, t6, h⟩ := obind_elim h
    obtain ⟨s7, t7, h⟩ := obind_elim h
    exact ⟨u1, u2, s1, s2, s3, s4, s5, s6, s7, g1, g2, t1, t2, t3, t4, t5, t6, t7, (Option.some.inj h).symm⟩
  · rintro ⟨u1, u2, s1, s2, s3, s4, s5, s6, s7, g1, g2, t1, t2, t3, t4, t5, t6, t7, rfl⟩
    exact obind_step g1 (obind_step g2 (obind_step t1 (obind_step t2 (obind_step t3 (obind_step t4 (obind_step t5
      (obind_step t6 (obind_step t7 rfl))))))))

/-- The lengths of the series. -/
theorem measurements_lengths {E : Curve G1 G2 GT} {env : Env} {parallel : Bool} {iterations : ℤ} {numIds : ℕ} {treeType : TreeType}
    {ppDraws : ℕ → Zr} {d : Draws} {c : Clocks} {fanOut : UInt16} {m : Measurement}
    (h : measurements E env parallel iterations numIds treeType ppDraws d c fanOut = some m) :
    m.ppGenTime.length = iterations.toNat ∧ m.proofTime.length = iterations.toNat ∧ m.verifyTime.length = iterations.toNat ∧
      m.equalityTimeProve.length = iterations.toNat ∧ m.sumTimeProve.length = iterations.toNat ∧
      m.equalityTimeVerify.length = iterations.toNat ∧ m.sumTimeVerify.length = iterations.toNat ∧
      m.ppSize.length = iterations.toNat ∧ m.proofSize.length = iterations.toNat := by
  obtain ⟨ppSize, sizes, es, hpp, -, -, hel, -, -, rfl⟩ := (measurements_iff _ _ _ _ _ _ _ _ _ _ _).1 h
  have := mapM_length _ _ _ hpp
  simp only [List.length_map, List.length_range] at this
  simp [Measurement.append, hel, this]

/-- **C91.** Whenever the program reports averages, it prints them: nine lines, of which the first two have the average sizes of
the parameters and of the proofs. -/
theorem C91_prints (E : Curve G1 G2 GT) (env : UInt16 → Env) (p : Process) (clocks : UInt16 → Clocks) (r : Report)
    (h : Bench.main E env p = some r) : ∃ lines, mainPrints E env p clocks = some lines ∧
      lines.map Prod.fst = ["PP sizes:", "Proof sizes:", "PP gen times:", "proof times:", "verify times:", "equality proof times:",
        "sum proof times:", "verify equality times:", "verify sum times:"] ∧
      lines[0]? = some ("PP sizes:", pairs r.ppSizes) ∧ lines[1]? = some ("Proof sizes:", pairs r.proofSizes) := by
  have : Inhabited Measurement := ⟨{}⟩
  unfold Bench.main at h
  obtain ⟨parallel, h1, h⟩ := obind_elim h
  obtain ⟨iterations, h2, h⟩ := obind_elim h
  obtain ⟨dense, h3, h⟩ := obind_elim h
  obtain ⟨sparse, h4, h⟩ := obind_elim h
  obtain ⟨treeType, h5, h⟩ := obind_elim h
  obtain ⟨proofSize, h6, h⟩ := obind_elim h
  obtain ⟨ppSizes, h7, h⟩ := obind_elim h
  obtain ⟨proofSizes, h8, h⟩ := obind_elim h
  rw [Option.pure_def, Option.some.injEq] at h
  subst h
  obtain ⟨chosen, hc⟩ : ∃ chosen, averages chosen = some ppSizes ∧ (treeType = .dense → chosen = dense) ∧
      (treeType = .sparse → chosen = sparse) := by
    refine ⟨_, h7, ?_, ?_⟩ <;> (rintro rfl; rfl)
  have hpp : ∀ tt, ∀ f ∈ fanouts, ∃ s, measurePPGen E tt ((List.range iterations.toNat).map (p.ppDraws tt f)) f = some s := by
    intro tt f hf
    cases tt with
    | dense => exact ⟨_, (mapM_map _ _ _ h3).2 f hf⟩
    | sparse => exact ⟨_, (mapM_map _ _ _ h4).2 f hf⟩
  have hz : ∀ f ∈ fanouts, ∃ m, measurements E (env f) parallel iterations totalPopulation treeType (p.ppDraws treeType f) (p.draws f)
      (clocks f) f = some m := by
    intro f hf
    obtain ⟨s, hs⟩ := hpp treeType f hf
    obtain ⟨sizes, hsz⟩ : ∃ sizes, benchmarkFanout E (env f) iterations totalPopulation treeType (p.draws f) f = some sizes :=
      ⟨_, (mapM_map _ _ _ h6).2 f hf⟩
    have hlen : sizes.length = iterations.toNat := benchmark_length hsz
    refine ⟨_, (measurements_iff _ _ _ _ _ _ _ _ _ _ _).2 ⟨s, sizes, (List.range iterations.toNat).map fun i =>
      entry parallel (measuredLength E treeType (p.draws f) f i) ((clocks f).prove i) ((clocks f).verify i) (sizes.getD i 0), hs, hsz,
      hlen, by simp, ?_, fun i hi => ⟨sizes.getD i 0, by rw [List.getElem?_map, List.getElem?_range hi]; rfl⟩, rfl⟩⟩
    apply List.ext_getElem?
    intro i
    by_cases hi : i < iterations.toNat
    · rw [List.getElem?_map, List.getElem?_map, List.getElem?_range hi, List.getElem?_eq_getElem (by omega)]
      simp only [Option.map_some, entry]
      rw [List.getD_eq_getElem?_getD, List.getElem?_eq_getElem (by omega)]
      rfl
    · rw [List.getElem?_eq_none (by simp; omega), List.getElem?_eq_none (by omega)]
  choose! z hz using hz
  have e1 : (fanouts.map z).map Measurement.ppSize = chosen := by
    have hps : ∀ f ∈ fanouts, measurePPGen E treeType ((List.range iterations.toNat).map (p.ppDraws treeType f)) f
        = some (z f).ppSize := by
      intro f hf
      obtain ⟨ppSize, sizes, es, q1, -, -, -, -, -, q2⟩ := (measurements_iff _ _ _ _ _ _ _ _ _ _ _).1 (hz f hf)
      rw [q1, q2]
      rfl
    have := mapM_some_of _ _ _ hps
    rw [List.map_map]
    cases htt : treeType with
    | dense =>
      rw [hc.2.1 htt]
      rw [htt] at this
      exact (Option.some.inj (h3.symm.trans this)).symm
    | sparse =>
      rw [hc.2.2 htt]
      rw [htt] at this
      exact (Option.some.inj (h4.symm.trans this)).symm
  have e2 : (fanouts.map z).map Measurement.proofSize = proofSize := by
    have hps : ∀ f ∈ fanouts, benchmarkFanout E (env f) iterations totalPopulation treeType (p.draws f) f = some (z f).proofSize := by
      intro f hf
      obtain ⟨ppSize, sizes, es, -, q1, -, -, q3, -, q2⟩ := (measurements_iff _ _ _ _ _ _ _ _ _ _ _).1 (hz f hf)
      rw [q1, q2, ← q3]
      rfl
    have := mapM_some_of _ _ _ hps
    rw [h6, Option.some.injEq] at this
    rw [this, List.map_map]
    rfl
  have h0 : iterations.toNat ≠ 0 := by
    have hz3 := hz 3 (by decide)
    unfold averages at h8
    have := (mapM_map (B := UInt16 × Int64) _ _ _ h8).2 (3, (z 3).proofSize) (by
      rw [← e2, List.map_map, zip_map_self]
      exact List.mem_map.2 ⟨3, by decide, rfl⟩)
    obtain ⟨a, ha, -⟩ := obind_elim this
    rw [← (measurements_lengths hz3).2.2.2.2.2.2.2.2]
    exact avg_length ha
  have hav : ∀ F : Measurement → List Int64, (∀ f ∈ fanouts, (F (z f)).length = iterations.toNat) →
      ∃ s, times F (fanouts.map z) = some s := by
    intro F hF
    have : ∀ f ∈ fanouts, ∃ a, avg (F (z f)) = some a := fun f hf => avg_some _ (by rw [hF f hf]; exact h0)
    choose! a ha using this
    exact ⟨_, times_eq F z a ha⟩
  have hl : ∀ f ∈ fanouts, _ := fun f hf => measurements_lengths (hz f hf)
  obtain ⟨s1, t1⟩ := hav Measurement.ppGenTime fun f hf => (hl f hf).1
  obtain ⟨s2, t2⟩ := hav Measurement.proofTime fun f hf => (hl f hf).2.1
  obtain ⟨s3, t3⟩ := hav Measurement.verifyTime fun f hf => (hl f hf).2.2.1
  obtain ⟨s4, t4⟩ := hav Measurement.equalityTimeProve fun f hf => (hl f hf).2.2.2.1
  obtain ⟨s5, t5⟩ := hav Measurement.sumTimeProve fun f hf => (hl f hf).2.2.2.2.1
  obtain ⟨s6, t6⟩ := hav Measurement.equalityTimeVerify fun f hf => (hl f hf).2.2.2.2.2.1
  obtain ⟨s7, t7⟩ := hav Measurement.sumTimeVerify fun f hf => (hl f hf).2.2.2.2.2.2.1
  have l1 : sizeLine Measurement.ppSize (fanouts.map z) = some (pairs ppSizes) := by
    unfold sizeLine
    rw [e1, hc.1]
    rfl
  have l2 : sizeLine Measurement.proofSize (fanouts.map z) = some (pairs proofSizes) := by
    unfold sizeLine
    rw [e2, h8]
    rfl
  exact ⟨_, (mainPrints_iff _ _ _ _ _).2 ⟨parallel, iterations, treeType, z, h1, h2, h5, hpp, hz, (lastLines_iff _ _).2
    ⟨_, _, s1, s2, s3, s4, s5, s6, s7, l1, l2, t1, t2, t3, t4, t5, t6, t7, rfl⟩⟩, rfl, rfl, rfl⟩

/-- **C91**: and it prints nothing else. -/
theorem C91_prints_only (E : Curve G1 G2 GT) (env : UInt16 → Env) (p : Process) (clocks : UInt16 → Clocks) (lines : List (String × Str))
    (h : mainPrints E env p clocks = some lines) : ∃ r, Bench.main E env p = some r := by
  obtain ⟨parallel, iterations, treeType, z, h1, h2, h5, hpp, hz, hl⟩ := (mainPrints_iff _ _ _ _ _).1 h
  obtain ⟨u1, u2, _, _, _, _, _, _, _, g1, g2, -⟩ := (lastLines_iff _ _).1 hl
  choose! w hw using hpp
  obtain ⟨a1, ha1, -⟩ := obind_elim g1
  obtain ⟨a2, ha2, -⟩ := obind_elim g2
  have e1 : (fanouts.map z).map Measurement.ppSize = fanouts.map (w treeType) := by
    rw [List.map_map]
    refine List.map_congr_left fun f hf => ?_
    obtain ⟨ppSize, sizes, es, q1, -, -, -, -, -, q2⟩ := (measurements_iff _ _ _ _ _ _ _ _ _ _ _).1 (hz f hf)
    rw [hw treeType f hf, Option.some.injEq] at q1
    rw [q1, Function.comp_apply, q2]
    rfl
  rw [e1] at ha1
  have hb : ∀ f ∈ fanouts, benchmarkFanout E (env f) iterations totalPopulation treeType (p.draws f) f = some (z f).proofSize := by
    intro f hf
    obtain ⟨ppSize, sizes, es, -, q1, -, -, q3, -, q2⟩ := (measurements_iff _ _ _ _ _ _ _ _ _ _ _).1 (hz f hf)
    rw [q1, q2, ← q3]
    rfl
  rw [List.map_map] at ha2
  unfold Bench.main
  have key : ∃ r, (do
      let ppSizes ← averages (match treeType with
        | .dense => fanouts.map (w .dense)
        | .sparse => fanouts.map (w .sparse))
      let proofSizes ← averages (fanouts.map fun f => (z f).proofSize)
      return { ppSizes := ppSizes, proofSizes := proofSizes } : Option Report) = some r := by
    cases treeType with
    | dense => exact ⟨_, obind_step ha1 (obind_step ha2 rfl)⟩
    | sparse => exact ⟨_, obind_step ha1 (obind_step ha2 rfl)⟩
  obtain ⟨r, hr⟩ := key
  exact ⟨r, obind_step h1 (obind_step h2 (obind_step (mapM_some_of _ _ (w .dense) (hw .dense))
    (obind_step (mapM_some_of _ _ (w .sparse) (hw .sparse)) (obind_step h5 (obind_step (mapM_some_of _ _ _ hb) hr)))))⟩

/-! ## The times -/

theorem lines_of_times {E : Curve G1 G2 GT} {env : UInt16 → Env} {p : Process} {clocks : UInt16 → Clocks} {lines : List (String × Str)}
    (h : mainPrints E env p clocks = some lines) {parallel : Bool} (hpar : setParallelism p.parallelism = some parallel)
    {iterations : ℕ} (hit : getIterations p.iterations = some (iterations : ℤ)) {treeType : TreeType}
    (htree : setTreeType p.treeType = some treeType) (hc : GoodClocks E p parallel iterations treeType clocks) :
    1 ≤ iterations ∧ ∀ (label : String) (prove : Bool) (P : Work → Bool), (label, prove, P) ∈
      ("sum proof times:", true, fun w => decide (w = .pointProofSum ∨ w = .pointProofAggregate ∨ w = .sumArgument)) :: timeLabels →
      ∃ x : UInt16 → Int64, (label, pairs (fanouts.map fun f => (f, x f))) ∈ lines ∧ ∀ f ∈ fanouts, (x f).toInt =
        (∑ i ∈ Finset.range iterations, spentIn prove P parallel (measuredLength E treeType (p.draws f) f i) (clocks f) i)
          / iterations / 1000000 := by
  obtain ⟨par', it', tt', z, h1, h2, h5, -, hz, hl⟩ := (mainPrints_iff _ _ _ _ _).1 h
  rw [hpar, Option.some.injEq] at h1
  rw [hit, Option.some.injEq] at h2
  rw [htree, Option.some.injEq] at h5
  subst h1 h2 h5
  have hlens : ∀ f ∈ fanouts, _ := fun f hf => measurements_lengths (hz f hf)
  simp only [Int.toNat_natCast] at hlens
  obtain ⟨u1, u2, s1, s2, s3, s4, s5, s6, s7, -, g2, -, t2, t3, t4, t5, t6, t7, rfl⟩ := (lastLines_iff _ _).1 hl
  have hpos : 1 ≤ iterations := by
    obtain ⟨a2, ha2, -⟩ := obind_elim g2
    unfold averages at ha2
    have := (mapM_map (B := UInt16 × Int64) _ _ _ ha2).2 (3, (z 3).proofSize) (by
      rw [List.map_map, zip_map_self]
      exact List.mem_map.2 ⟨3, by decide, rfl⟩)
    obtain ⟨a, ha, -⟩ := obind_elim this
    have := avg_length ha
    rw [(hlens 3 (by decide)).2.2.2.2.2.2.2.2] at this
    omega
  have hit63 : iterations < 2 ^ 63 := by
    have : iterations < 2 ^ 31 := by
      unfold getIterations at hit
      split_ifs at hit
      · unfold parseInt32 at hit
        obtain ⟨n, -, hn⟩ := Option.bind_eq_some_iff.1 hit
        split_ifs at hn with hb
        rw [Option.pure_def, Option.some.injEq] at hn
        omega
      · rw [Option.some.injEq] at hit
        omega
    omega
  have key : ∀ (F : Measurement → List Int64) (G : Entry → Int64) (prove : Bool) (P : Work → Bool) (s : Str),
      (∀ (m : Measurement) es, F (m.append es) = F m ++ es.map G) →
      (∀ (g : List Int64) (pps : List Int64), F { ppGenTime := g, ppSize := pps } = []) →
      (∀ f ∈ fanouts, ∀ i < iterations, ∀ y, (G (entry parallel (measuredLength E treeType (p.draws f) f i) ((clocks f).prove i)
        ((clocks f).verify i) y)).toInt = spentIn prove P parallel (measuredLength E treeType (p.draws f) f i) (clocks f) i) →
      times F (fanouts.map z) = some s →
      ∃ x : UInt16 → Int64, s = pairs (fanouts.map fun f => (f, x f)) ∧ ∀ f ∈ fanouts, (x f).toInt =
        (∑ i ∈ Finset.range iterations, spentIn prove P parallel (measuredLength E treeType (p.draws f) f i) (clocks f) i)
          / iterations / 1000000 := by
    intro F G prove P s hF1 hF2 hG ht
    have : ∀ f ∈ fanouts, ∃ a, avg (F (z f)) = some a ∧ (milliseconds a).toInt =
        (∑ i ∈ Finset.range iterations, spentIn prove P parallel (measuredLength E treeType (p.draws f) f i) (clocks f) i)
          / iterations / 1000000 := by
      intro f hf
      obtain ⟨ppSize, sizes, es, -, -, -, hel, -, hget, hm⟩ := (measurements_iff _ _ _ _ _ _ _ _ _ _ _).1 (hz f hf)
      rw [Int.toNat_natCast] at hel hget
      have hFz : F (z f) = es.map G := by rw [hm, hF1, hF2, List.nil_append]
      refine avg_ms iterations hpos _ _ (by rw [hFz, List.length_map, hel]) (fun i hi => ?_) (fun i hi => ?_) (fun i hi => ?_) hit63
      · obtain ⟨y, hy⟩ := hget i hi
        exact ⟨_, by rw [hFz, List.getElem?_map, hy]; rfl, hG f hf i hi y⟩
      · unfold spentIn
        split
        · exact (spent_bounds P _ _ (hc.prove f hf i hi).mono).1
        · exact (spent_bounds P _ _ (hc.verify f hf i hi).mono).1
      · unfold spentIn
        split
        · exact lt_of_le_of_lt (mul_le_mul_of_nonneg_left (spent_bounds P _ _ (hc.prove f hf i hi).mono).2 (by omega))
            (hc.prove_sum f hf i hi)
        · exact lt_of_le_of_lt (mul_le_mul_of_nonneg_left (spent_bounds P _ _ (hc.verify f hf i hi).mono).2 (by omega))
            (hc.verify_sum f hf i hi)
    choose! a ha using this
    refine ⟨fun f => milliseconds (a f), ?_, fun f hf => (ha f hf).2⟩
    rw [times_eq F z a fun f hf => (ha f hf).1, Option.some.injEq] at ht
    exact ht.symm
  refine ⟨hpos, fun label prove P hmem => ?_⟩
  simp only [timeLabels, List.mem_cons, Prod.mk.injEq, List.not_mem_nil, or_false] at hmem
  rcases hmem with ⟨rfl, rfl, rfl⟩ | ⟨rfl, rfl, rfl⟩ | ⟨rfl, rfl, rfl⟩ | ⟨rfl, rfl, rfl⟩ | ⟨rfl, rfl, rfl⟩ | ⟨rfl, rfl, rfl⟩
  · obtain ⟨x, hx, hx'⟩ := key _ Entry.sumProve true (fun w => decide (w = .pointProofSum ∨ w = .pointProofAggregate ∨ w = .sumArgument)) s5 (fun _ _ => rfl) (fun _ _ => rfl) (fun f hf i hi y =>
      (entry_prove (hc.prove f hf i hi)).2.2) t5
    exact ⟨x, by rw [hx]; simp, hx'⟩
  · obtain ⟨x, hx, hx'⟩ := key _ Entry.prove true (fun w => w ≠ .get) s2 (fun _ _ => rfl) (fun _ _ => rfl) (fun f hf i hi y =>
      (entry_prove (hc.prove f hf i hi)).1) t2
    exact ⟨x, by rw [hx]; simp, hx'⟩
  · obtain ⟨x, hx, hx'⟩ := key _ Entry.eqProve true (fun w => w = .equalities) s4 (fun _ _ => rfl) (fun _ _ => rfl) (fun f hf i hi y =>
      (entry_prove (hc.prove f hf i hi)).2.1) t4
    exact ⟨x, by rw [hx]; simp, hx'⟩
  · obtain ⟨x, hx, hx'⟩ := key _ Entry.verify false (fun _ => true) s3 (fun _ _ => rfl) (fun _ _ => rfl) (fun f hf i hi y =>
      (entry_verify (hc.verify f hf i hi)).1) t3
    exact ⟨x, by rw [hx]; simp, hx'⟩
  · obtain ⟨x, hx, hx'⟩ := key _ Entry.eqVerify false (fun w => w = .equalities) s6 (fun _ _ => rfl) (fun _ _ => rfl) (fun f hf i hi y =>
      (entry_verify (hc.verify f hf i hi)).2.1) t6
    exact ⟨x, by rw [hx]; simp, hx'⟩
  · obtain ⟨x, hx, hx'⟩ := key _ Entry.sumVerify false (fun w => w = .sumArgument) s7 (fun _ _ => rfl) (fun _ _ => rfl) (fun f hf i hi y =>
      (entry_verify (hc.verify f hf i hi)).2.2) t7
    exact ⟨x, by rw [hx]; simp, hx'⟩

/-- **C91.** With clocks that never go back, the numbers in the lines of times are the averages, in milliseconds rounded down, of
the time spent on what `timeLabels` says.  What is missing: `"sum proof times:"`, see `C91_violated`. -/
theorem C91_times_partial {E : Curve G1 G2 GT} {env : UInt16 → Env} {p : Process} {clocks : UInt16 → Clocks}
    {lines : List (String × Str)} (h : mainPrints E env p clocks = some lines) {parallel : Bool}
    (hpar : setParallelism p.parallelism = some parallel) {iterations : ℕ} (hit : getIterations p.iterations = some (iterations : ℤ))
    {treeType : TreeType} (htree : setTreeType p.treeType = some treeType) (hc : GoodClocks E p parallel iterations treeType clocks)
    (label : String) (prove : Bool) (P : Work → Bool) (hl : (label, prove, P) ∈ timeLabels) :
    ∃ x : UInt16 → Int64, (label, pairs (fanouts.map fun f => (f, x f))) ∈ lines ∧ ∀ f ∈ fanouts, (x f).toInt =
      (∑ i ∈ Finset.range iterations, spentIn prove P parallel (measuredLength E treeType (p.draws f) f i) (clocks f) i)
        / iterations / 1000000 :=
  (lines_of_times h hpar hit htree hc).2 label prove P (List.mem_cons_of_mem _ hl)

/-- **C91** fails for `"sum proof times:"`: the time spent on opening the aggregated point proofs is in it too.  If that takes
at least a millisecond in every iteration, then the number printed is too large for every fan-out. -/
theorem C91_violated {E : Curve G1 G2 GT} {env : UInt16 → Env} {p : Process} {clocks : UInt16 → Clocks}
    {lines : List (String × Str)} (h : mainPrints E env p clocks = some lines) {parallel : Bool}
    (hpar : setParallelism p.parallelism = some parallel) {iterations : ℕ} (hit : getIterations p.iterations = some (iterations : ℤ))
    {treeType : TreeType} (htree : setTreeType p.treeType = some treeType) (hc : GoodClocks E p parallel iterations treeType clocks)
    (hslow : ∀ f ∈ fanouts, ∀ i < iterations, 1000000 ≤ spentIn true (fun w => w = .pointProofSum ∨ w = .pointProofAggregate) parallel
      (measuredLength E treeType (p.draws f) f i) (clocks f) i) :
    ∃ x : UInt16 → Int64, ("sum proof times:", pairs (fanouts.map fun f => (f, x f))) ∈ lines ∧ ∀ f ∈ fanouts,
      (∑ i ∈ Finset.range iterations, spentIn true (fun w => w = .sumArgument) parallel (measuredLength E treeType (p.draws f) f i)
        (clocks f) i) / iterations / 1000000 < (x f).toInt := by
  obtain ⟨hpos, hx⟩ := lines_of_times h hpar hit htree hc
  obtain ⟨x, hx, hx'⟩ := hx _ _ _ List.mem_cons_self
  refine ⟨x, hx, fun f hf => ?_⟩
  rw [hx' f hf]
  have e : ∀ i, spentIn true (fun w => decide (w = .pointProofSum ∨ w = .pointProofAggregate ∨ w = .sumArgument)) parallel
      (measuredLength E treeType (p.draws f) f i) (clocks f) i
      = spentIn true (fun w => decide (w = .pointProofSum ∨ w = .pointProofAggregate)) parallel (measuredLength E treeType (p.draws f) f i)
        (clocks f) i + spentIn true (fun w => decide (w = .sumArgument)) parallel (measuredLength E treeType (p.draws f) f i) (clocks f) i := by
    intro i
    unfold spentIn
    rw [if_pos rfl, if_pos rfl, if_pos rfl, ← spent_or (fun w => by cases w <;> simp)]
    congr 1
    funext w
    cases w <;> simp
  simp only [e, Finset.sum_add_distrib]
  have hs : (iterations : ℤ) * 1000000 ≤ ∑ i ∈ Finset.range iterations, spentIn true
      (fun w => decide (w = .pointProofSum ∨ w = .pointProofAggregate)) parallel (measuredLength E treeType (p.draws f) f i) (clocks f) i := by
    have := Finset.card_nsmul_le_sum (Finset.range iterations) (fun i => spentIn true
      (fun w => decide (w = .pointProofSum ∨ w = .pointProofAggregate)) parallel (measuredLength E treeType (p.draws f) f i) (clocks f) i)
      1000000 fun i hi => hslow f hf i (Finset.mem_range.1 hi)
    rwa [Finset.card_range, nsmul_eq_mul] at this
  obtain ⟨A, hA⟩ : ∃ A, A = ∑ i ∈ Finset.range iterations, spentIn true
      (fun w => decide (w = .pointProofSum ∨ w = .pointProofAggregate)) parallel (measuredLength E treeType (p.draws f) f i) (clocks f) i :=
    ⟨_, rfl⟩
  obtain ⟨B, hB⟩ : ∃ B, B = ∑ i ∈ Finset.range iterations, spentIn true (fun w => decide (w = .sumArgument)) parallel
      (measuredLength E treeType (p.draws f) f i) (clocks f) i := ⟨_, rfl⟩
  rw [← hA] at hs ⊢
  rw [← hB]
  have hip : (0 : ℤ) < iterations := by omega
  rw [Int.ediv_ediv_of_nonneg hip.le, Int.ediv_ediv_of_nonneg hip.le]
  have h2 : (iterations : ℤ) * 1000000 + B ≤ A + B := by linarith
  have h3 : ((iterations : ℤ) * 1000000 + B) / (iterations * 1000000) = 1 + B / (iterations * 1000000) := by
    rw [add_comm, Int.add_ediv_of_dvd_right (dvd_refl _), Int.ediv_self (by positivity), add_comm]
  have h4 := Int.ediv_le_ediv (a := (iterations : ℤ) * 1000000 + B) (b := A + B) (c := iterations * 1000000) (by positivity) h2
  omega

/-- **C91.** In the lines of times, the parts are at most the whole: for every fan-out, the times of the equality proofs and of the
sum proofs together are at most those of the proofs, and likewise for the verification. -/
theorem C91_parts {E : Curve G1 G2 GT} {env : UInt16 → Env} {p : Process} {clocks : UInt16 → Clocks}
    {lines : List (String × Str)} (h : mainPrints E env p clocks = some lines) {parallel : Bool}
    (hpar : setParallelism p.parallelism = some parallel) {iterations : ℕ} (hit : getIterations p.iterations = some (iterations : ℤ))
    {treeType : TreeType} (htree : setTreeType p.treeType = some treeType) (hc : GoodClocks E p parallel iterations treeType clocks)
    (total eq sum : String) (hl : (total, eq, sum) ∈ [("proof times:", "equality proof times:", "sum proof times:"),
      ("verify times:", "verify equality times:", "verify sum times:")]) :
    ∃ x y z : UInt16 → Int64, (total, pairs (fanouts.map fun f => (f, x f))) ∈ lines ∧
      (eq, pairs (fanouts.map fun f => (f, y f))) ∈ lines ∧ (sum, pairs (fanouts.map fun f => (f, z f))) ∈ lines ∧
      ∀ f ∈ fanouts, 0 ≤ (y f).toInt ∧ 0 ≤ (z f).toInt ∧ (y f).toInt + (z f).toInt ≤ (x f).toInt := by
  obtain ⟨hpos, hx⟩ := lines_of_times h hpar hit htree hc
  have hip : (0 : ℤ) < iterations := by omega
  have core : ∀ (prove : Bool) (P Q R : Work → Bool), (∀ w, P w = true → Q w = false) → (∀ w, (P w || Q w) = true → R w = true) →
      ∀ f ∈ fanouts, ∀ a b c : ℤ,
      a = (∑ i ∈ Finset.range iterations, spentIn prove R parallel (measuredLength E treeType (p.draws f) f i) (clocks f) i)
        / iterations / 1000000 →
      b = (∑ i ∈ Finset.range iterations, spentIn prove P parallel (measuredLength E treeType (p.draws f) f i) (clocks f) i)
        / iterations / 1000000 →
      c = (∑ i ∈ Finset.range iterations, spentIn prove Q parallel (measuredLength E treeType (p.draws f) f i) (clocks f) i)
        / iterations / 1000000 → 0 ≤ b ∧ 0 ≤ c ∧ b + c ≤ a := by
    intro prove P Q R hd hR f hf a b c ha hb hcc
    have mono : ∀ i < iterations, Monotone (if prove then (clocks f).prove i else (clocks f).verify i) := by
      intro i hi
      cases prove
      · exact (hc.verify f hf i hi).mono
      · exact (hc.prove f hf i hi).mono
    have nn : ∀ P : Work → Bool, 0 ≤ ∑ i ∈ Finset.range iterations, spentIn prove P parallel (measuredLength E treeType (p.draws f) f i)
        (clocks f) i := by
      intro P
      refine Finset.sum_nonneg fun i hi => ?_
      have := mono i (Finset.mem_range.1 hi)
      unfold spentIn
      cases prove <;> exact (spent_bounds P _ _ this).1
    have le : (∑ i ∈ Finset.range iterations, spentIn prove P parallel (measuredLength E treeType (p.draws f) f i) (clocks f) i)
        + (∑ i ∈ Finset.range iterations, spentIn prove Q parallel (measuredLength E treeType (p.draws f) f i) (clocks f) i)
        ≤ ∑ i ∈ Finset.range iterations, spentIn prove R parallel (measuredLength E treeType (p.draws f) f i) (clocks f) i := by
      rw [← Finset.sum_add_distrib]
      refine Finset.sum_le_sum fun i hi => ?_
      have := mono i (Finset.mem_range.1 hi)
      unfold spentIn
      cases prove
      · rw [if_neg (by simp), if_neg (by simp), if_neg (by simp), ← spent_or hd]
        exact spent_mono hR _ _ this
      · rw [if_pos rfl, if_pos rfl, if_pos rfl, ← spent_or hd]
        exact spent_mono hR _ _ this
    have nP := nn P
    have nQ := nn Q
    obtain ⟨A, hA⟩ : ∃ A, A = ∑ i ∈ Finset.range iterations, spentIn prove P parallel (measuredLength E treeType (p.draws f) f i)
      (clocks f) i := ⟨_, rfl⟩
    obtain ⟨B, hB⟩ : ∃ B, B = ∑ i ∈ Finset.range iterations, spentIn prove Q parallel (measuredLength E treeType (p.draws f) f i)
      (clocks f) i := ⟨_, rfl⟩
    obtain ⟨C, hC⟩ : ∃ C, C = ∑ i ∈ Finset.range iterations, spentIn prove R parallel (measuredLength E treeType (p.draws f) f i)
      (clocks f) i := ⟨_, rfl⟩
    rw [← hA] at nP le hb
    rw [← hB] at nQ le hcc
    rw [← hC] at le ha
    rw [Int.ediv_ediv_of_nonneg hip.le] at ha hb hcc
    have hk : (0 : ℤ) < iterations * 1000000 := by positivity
    refine ⟨by rw [hb]; exact Int.ediv_nonneg nP hk.le, by rw [hcc]; exact Int.ediv_nonneg nQ hk.le, ?_⟩
    rw [ha, Int.le_ediv_iff_mul_le hk, add_mul, hb, hcc]
    have q1 := Int.ediv_mul_le A hk.ne'
    have q2 := Int.ediv_mul_le B hk.ne'
    linarith
  simp only [List.mem_cons, Prod.mk.injEq, List.not_mem_nil, or_false] at hl
  rcases hl with ⟨rfl, rfl, rfl⟩ | ⟨rfl, rfl, rfl⟩
  · obtain ⟨x, m1, e1⟩ := hx "proof times:" true (fun w => w ≠ .get) (by simp [timeLabels])
    obtain ⟨y, m2, e2⟩ := hx "equality proof times:" true (fun w => w = .equalities) (by simp [timeLabels])
    obtain ⟨z, m3, e3⟩ := hx "sum proof times:" true _ List.mem_cons_self
    exact ⟨x, y, z, m1, m2, m3, fun f hf => core _ _ _ _ (fun w => by cases w <;> simp) (fun w => by cases w <;> simp) f hf _ _ _
      (e1 f hf) (e2 f hf) (e3 f hf)⟩
  · obtain ⟨x, m1, e1⟩ := hx "verify times:" false (fun _ => true) (by simp [timeLabels])
    obtain ⟨y, m2, e2⟩ := hx "verify equality times:" false (fun w => w = .equalities) (by simp [timeLabels])
    obtain ⟨z, m3, e3⟩ := hx "verify sum times:" false (fun w => w = .sumArgument) (by simp [timeLabels])
    exact ⟨x, y, z, m1, m2, m3, fun f hf => core _ _ _ _ (fun w => by cases w <;> simp) (fun w => by cases w <;> simp) f hf _ _ _
      (e1 f hf) (e2 f hf) (e3 f hf)⟩

/-! ## Examples -/

/-- A clock that moves on by two milliseconds when point proofs are aggregated, and at no other step. -/
def toyTime : List Step → ℕ → ℤ
  | [], _ => 0
  | _ :: _, 0 => 0
  | a :: s, j + 1 => (if a = .work .pointProofAggregate then 2000000 else 0) + toyTime s j

theorem toyTime_zero (s : List Step) : toyTime s 0 = 0 := by cases s <;> rfl

theorem toyTime_mono : ∀ s, Monotone (toyTime s)
  | [] => fun _ _ _ => le_refl _
  | a :: s => by
    refine monotone_nat_of_le_succ fun j => ?_
    cases j with
    | zero =>
      change 0 ≤ _ + toyTime s 0
      rw [toyTime_zero]
      split_ifs <;> norm_num
    | succ j => exact add_le_add (le_refl _) (toyTime_mono s (Nat.le_succ j))

theorem toyTime_free : ∀ s, FreeReadings s (toyTime s)
  | [] => trivial
  | .work w :: s => by
    have h := toyTime_free s
    have shift : ∀ (s : List Step) (c : ℤ) (τ : ℕ → ℤ), FreeReadings s τ → FreeReadings s fun j => c + τ j := by
      intro s c
      induction s with
      | nil => exact fun _ _ => trivial
      | cons a s ih =>
        intro τ h
        cases a with
        | work w => exact ih _ h
        | now => exact ⟨by dsimp only; rw [h.1], ih _ h.2⟩
    exact shift s _ _ h
  | .now :: s => by
    refine ⟨by simp [toyTime, toyTime_zero], ?_⟩
    have e : (fun j => toyTime (.now :: s) (j + 1)) = toyTime s := by funext j; simp [toyTime]
    rw [e]
    exact toyTime_free s

theorem toyTime_total : ∀ s : List Step, toyTime s s.length = 2000000 * s.count (.work .pointProofAggregate)
  | [] => rfl
  | a :: s => by
    rw [List.length_cons, toyTime, toyTime_total s, List.count_cons]
    by_cases h : a = .work .pointProofAggregate <;> (simp [h]; try ring)

theorem toyTime_spent : ∀ s : List Step, spent (fun w => w = .pointProofSum ∨ w = .pointProofAggregate) s (toyTime s)
    = 2000000 * s.count (.work .pointProofAggregate)
  | [] => rfl
  | a :: s => by
    have shift : ∀ (P : Work → Bool) (s : List Step) (c : ℤ) (τ : ℕ → ℤ), spent P s (fun j => c + τ j) = spent P s τ := by
      intro P s c
      induction s with
      | nil => exact fun _ => rfl
      | cons a s ih =>
        intro τ
        cases a with
        | work w => rw [spent, spent, ih fun j => τ (j + 1)]; congr 2; ring
        | now => exact ih _
    cases a with
    | work w =>
      rw [spent, List.count_cons]
      have e : (fun j => toyTime (.work w :: s) (j + 1))
          = fun j => (if Step.work w = .work .pointProofAggregate then 2000000 else 0) + toyTime s j := rfl
      rw [e, shift, toyTime_spent s]
      change (if _ then ((_ : ℤ) + toyTime s 0) - 0 else 0) + _ = _
      rw [toyTime_zero]
      cases w <;> simp
      ring
    | now =>
      rw [spent, List.count_cons]
      have e : (fun j => toyTime (.now :: s) (j + 1)) = toyTime s := by funext j; simp [toyTime]
      rw [e, toyTime_spent s]
      simp

theorem toyTime_prove (parallel : Bool) (L : ℕ) : (proveSteps parallel L).count (.work .pointProofAggregate) = 1 := by
  rw [proveSteps_eq, List.count_append, List.count_append, List.count_eq_zero (l := proveMiddle parallel L).2 fun h => ?_]
  · rfl
  · obtain ⟨w, e, h⟩ := proveMiddle_mem h
    cases e
    simp at h

theorem toyTime_verify (parallel : Bool) (L : ℕ) : (verifySteps parallel L).count (.work .pointProofAggregate) = 0 := by
  rw [verifySteps_eq, List.count_append, List.count_append, List.count_eq_zero (l := verifyMiddle parallel L).2 fun h => ?_]
  · rfl
  · obtain ⟨w, e, h⟩ := verifyMiddle_mem h
    cases e
    simp at h

/-- `C91_violated` applies to every run of the program with ten iterations that reports something (`C70_main_reports_partial` says
when): there are clocks that meet its hypotheses. -/
example (E : Curve G1 G2 GT) (env : UInt16 → Env) (p : Process) (hit : p.iterations = "") (r : Report)
    (h : Bench.main E env p = some r) : ∃ (clocks : UInt16 → Clocks) (lines : List (String × Str)) (x : UInt16 → Int64),
      mainPrints E env p clocks = some lines ∧
      ("sum proof times:", pairs (fanouts.map fun f => (f, x f))) ∈ lines ∧ ∀ f ∈ fanouts, 0 < (x f).toInt := by
  obtain ⟨lines0, h0, -⟩ := C91_prints E env p (fun _ => ⟨fun _ => (0, 0), fun _ _ => 0, fun _ _ => 0⟩) r h
  obtain ⟨parallel, _, treeType, _, h1, -, h5, -⟩ := (mainPrints_iff _ _ _ _ _).1 h0
  obtain ⟨clocks, hcl⟩ : ∃ clocks : UInt16 → Clocks, clocks = fun f => ⟨fun _ => (0, 0),
      fun i => toyTime (proveSteps parallel (measuredLength E treeType (p.draws f) f i)),
      fun i => toyTime (verifySteps parallel (measuredLength E treeType (p.draws f) f i))⟩ := ⟨_, rfl⟩
  obtain ⟨lines, hl, -⟩ := C91_prints E env p clocks r h
  have hit' : getIterations p.iterations = some ((10 : ℕ) : ℤ) := by rw [hit]; rfl
  have hc : GoodClocks E p parallel 10 treeType clocks := by
    subst hcl
    refine ⟨fun f _ i _ => ⟨toyTime_mono _, toyTime_free _, ?_⟩, fun f _ i _ => ⟨toyTime_mono _, toyTime_free _, ?_⟩,
      fun f _ i _ => ?_, fun f _ i _ => ?_⟩
    all_goals simp only [toyTime_total, toyTime_zero, toyTime_prove, toyTime_verify]; norm_num
  obtain ⟨x, hx, hx'⟩ := C91_violated hl h1 hit' h5 hc fun f _ i _ => by
    subst hcl
    simp only [spentIn, if_true, toyTime_spent, toyTime_prove]
    norm_num
  refine ⟨clocks, lines, x, hl, hx, fun f hf => lt_of_le_of_lt ?_ (hx' f hf)⟩
  refine Int.ediv_nonneg (Int.ediv_nonneg (Finset.sum_nonneg fun i hi => ?_) (by norm_num)) (by norm_num)
  unfold spentIn
  rw [if_pos rfl]
  exact (spent_bounds _ _ _ (hc.prove f hf i (Finset.mem_range.1 hi)).mono).1

/-- Two lines. -/
example : pairs [(3, 17), (7, -2)] = "(3, 17)(7, -2)".toList := by decide +kernel

end PoL.Props
