# A Lean 4 model of yacovm/PoL

`lean/Verif/Model` is the model, one file per Go file; every definition cites the lines it models.
`lean/Verif/Spec` has the notions used to state properties independently of the model's helpers (transcripts,
multilinear extensions, the checks of a liability proof written out, …) and toy instances for concrete cases.
`lean/Verif/Props` has the property theorems, named `Cxx_…`; `lean/Verif/Proofs` has the lemmas.
`properties.jsonl` lists the properties, `MANIFEST.json` maps them to theorems, `seeded/LOG.jsonl` records the
experiments with wrong programs.

## Modelling decisions

* **Scalars.** `Zr` is `ZMod r` with `r` the BN254 group order; primality of `r` is proved (Pratt certificates).
  The library's `*math.Zr` sometimes holds unreduced big integers; the model identifies a scalar with its residue. A second
  model with integers in place of residues (`Model/Raw.lean`, `RawArg.lean`, `RawPol.lean`) and an arbitrary library meeting
  `ScalarLib.Lawful` justifies this (C102) and shows the one place where it matters (C103).
* **Groups.** `G1`, `G2`, `GT` are arbitrary `Zr`-modules with decidable equality, written additively; the pairing
  is an arbitrary bilinear map (Miller loop and final exponentiation are one step).
* **Hashing, encodings.** SHA-256, HMAC, hash-to-curve and the point encodings are arbitrary functions (fields of
  `Curve`). What is assumed of them is the structure `Curve.Lawful` (`GenGt = e(g1,g2)`; digests have 32 bytes;
  decoding inverts the encoding of points; encodings are not empty and at most 64 bytes long) and
  `Curve.NonDegenerate`; both are hypotheses of exactly the theorems that need them. So the theorems hold for every
  hash function, in particular no random-oracle assumption is made anywhere. Where an honest run divides by a
  challenge, "the challenges of this run are non-zero" is a hypothesis; C55 says which digests give zero.
* **Randomness** is an explicit argument, so "for all randomness" is a universal quantifier.
* **Panics** are `none` in the `Option` monad; an error return is the verdict `false` inside `some`. Loops that may
  not terminate are least fixed points (`partial_fixpoint`), so that non-termination is also `none`.
* **Maps** `map[uint16]*math.Zr` are functions `UInt16 → Option Zr`; where Go iterates over a map, the order is an
  argument, and theorems quantify over all orders.
* **The database** is a function from keys to optional byte strings; a `Put` is atomic and never fails (but see C115).
* **Pointers.** The sparse tree is an inductive tree; parent pointers become the return from the recursive calls. A second model
  with vertices in memory (`Model/Linked.lean`) justifies this (C78).
  In-place updates of group elements return the new value; a second model of all functions with points in memory
  (`Model/Ptr*.lean`) justifies this (C92). Fields of proofs that verifiers overwrite: C58, and with goroutines
  `Model/Schedule.lean`, `cell`.
* **Goroutines** (`Model/Schedule.lean`): transition systems with sequentially consistent memory, one step per access
  to shared memory; a panicking goroutine runs its deferred `Done` and then ends the process; the main goroutine may
  return in between. `Model/ManyVerify.lean`: any number of calls of `Verify` at once (C134).
* **Crashes** (`Model/Crash.lean`): the process may stop between two database writes.
* **Reading while writing** (`Model/Concurrent.lean`): one `ProveLiability` and one `Set`; any number of database writes
  between two reads. `Root` and `ProveTot` make one read each, in a state of `Model/Crash.lean` (C136).
* **Writing while writing** (`Model/Writers.lean`): any number of `Set`s of written paths; setting the leaf, the reads of a
  callback and its write are separate steps in any order. Go's data races on the vertices in memory are left out.
* **A database that loses values** (`Model/Lost.lean`): between two calls the value of any key can be lost; reading it then gives no
  bytes.  `Model/Damage.lean` has the same with values cut after any number of bytes.
* **Two sets over one database** (`Model/Shared.lean`): two liability sets with one database between them, and `Set`s on either in any
  order.
* **Failing calls of the database** (`Model/Faults.lean`): `Set` once more over a database of which any calls fail inside the `Set`; the
  caller recovers from the panic and goes on (C115).
* **Nil scalars and parts** (`Model/NilScalars.lean`): the checks of proofs once more with every pointer to a scalar or to a part of a proof an
  option that is used where the source uses it; points are values, range proofs are checked one after the other (C130).
* **Databases that answer anything** (`Model/Hostile.lean`): `Set` once more over a database that answers every callback from a map of its
  own choice, and the other calls over any map (C124); the same with panics and a caller who goes on (C126).
* **The calls of the database** (`Model/Access.lean`): the functions that use the database once more, with a list of the calls of `Get`
  and `Put` in order.  `ProveLiability` is taken from `Model/Pol.lean` after the reads it makes through `Tree.Get`.
* **Recovered panics** (`Model/Recover.lean`): for `Set`, what a call that panics leaves in the tree and, through the
  deferred `Put`s, in the database (C88, C89). Elsewhere a panic ends the model's run.

## Soundness statements

Soundness of the interactive arguments is *special soundness* (C12, C15, C18, C23, C27, and the aggregated versions
C66, C67, C68): there are an extractor and a finder of relations, both computing from the scalars of a tree of accepted
transcripts only, such that for every group and all generators the relations found hold and either one of them is
non-trivial or the extracted scalars are a witness. The trees are shown to exist (honest trees). C83 counts: a prover of the
interactive inner-product or sum argument that is accepted for more than a small number of challenges can be rewound to such a tree; C84 does the same for the reduction and the range proof, C85 for the aggregated sum argument, the batch equality proof and whole liability proofs. The step from an
adversary against the hashed version to such a tree (forking lemma) is not formalised; for the inner-product argument
and the sum argument as hashed by the code it does not exist (C82), nor for the range proof (C86). Binding of the vector
commitment (C03, C04, C08, C45) is stated as: two conflicting openings yield `α^(N+1)·g1`, the element the setup
withholds.

Privacy (C72–) is *perfect witness indistinguishability*, without probabilities: for two witnesses of the same statement
and every output with non-zero challenges, as many random values (of a set shown to be finite) lead to the output with one
witness as with the other (`EquallyLikely`, `Spec/Privacy.lean`); that scalars are drawn uniformly is left to the reader. Where it is needed, that the group has prime
order (`PrimeOrder`) is a hypothesis.

C75 is about a single published state: two histories with the same identifiers in the same order (the shape of the tree, the
identifiers and the number of writes are not hidden), and the root, the total and proofs taken after the last write. C76 shows that
views spanning a write do reveal the changes, because `updateInnerVertex` keeps the blinding factor. C104 carries C75 over to requests
that depend on earlier answers, and turns the counting into a bound on what any test can tell (`chance`, `Spec/Adaptive.lean`).

## How each property is proved

| id | what is modelled | how it is proved |
|----|------------------|------------------|
| C01–C08 | `pp/pointproofs.go` over abstract bilinear groups with trapdoor α | list algebra (`dot`), bilinearity, induction over lists |
| C09–C12 | `bp/innerprod.go` | induction on the folding depth; C11 refuted by an explicit mauling theorem; C12 by linear algebra per round |
| C13–C15 | `bp/ir.go` | induction on depth |
| C16–C18 | `bp/range.go` | C09 + C13 + algebra of `dot`; C18 by interpolation in z, root counting in y0, y1, and C12, C15 |
| C19–C23 | `sum/sa.go` | C09 + algebra, C12 |
| C24–C27 | `poe/poe.go` | C01 + C09 + bilinearity |
| C28–C33 | identifier-to-path functions, `IsPowerOfTwo` | digit induction; refutations by witness where the code violates the claim |
| C34–C36 | `sparse.Tree` generic in data and callback | induction over path and history |
| C37–C42 | `verkle/tree.go`, `encoding/asn1` as far as used | round-trip lemmas; invariant over histories of Put |
| C43–C51 | `pol/pol.go` | invariant + composition of all completeness theorems; forgeries constructed explicitly |
| C52–C53 | goroutines | invariants over all interleavings, termination measure |
| C54–C60 | parameters, hashing, vectors | computation, list lemmas |
| C61 | sequence of DB writes of a Set | witness of an inconsistent prefix |
| C62–C65 | verifier totality, totals, sizes | witnesses plus the part that holds |
| C66, C67 | aggregated sum argument, batch equality proof | C23 and root counting in the combination challenge; C12 and a dual basis of the challenges |
| C68 | amounts of accepted proofs add up to at most the proven total | C18, C66, C67 and C03 extract the entries of every layer; induction over the layers of the tree. One commitment per layer and agreement on common ancestors are hypotheses: the code enforces neither (C49, C50) |
| C69–C71 | `bench/main.go` | digit values; induction over the random draws, then C43–C47; arithmetic of `int64` |
| C72–C74 | privacy of the sum argument, the range proof and the equality proofs | masked values determine the other witness' random values; the rest of the proof is a function of them |
| C75 | privacy of everything published after a history: root, total proof, liability proofs | each stored commitment is a function of the amounts plus `rand(τ q)·α^(F+2)`, where the draw number `τ q` depends on the identifiers only; shifting the draws keeps all `V`, hence all `W` and digests; C72–C74 layer by layer for the proofs |
| C76 | changes are revealed by proofs from before and after a write | same formula with the same draw number |
| C77 | the stream written by `Serialize` can be read back | induction over the tree; DER lemmas of C38; `Put` keeps the indices of each map distinct |
| C78 | the linked vertices form a tree, `Put` and `Get` on them refine the inductive model | separation: `IsTree h par ptr v S` (the vertices from `ptr` form `v` inside `S`), frame lemmas, induction over the path |
| C79 | the table of path lengths holds the most frequent length | `withDigits f n` counts the 256-bit numbers with `n` digits; a closed form, monotonicity, and two comparisons per entry |
| C80 | `NewVerkleTree` works for fan-outs up to 65533 and for no others | the invariant of C39; length of the committed vector against the wrapped `fanOut+2` |
| C81 | an accepted sum argument is about a commitment to a balanced vector (false) | extraction from three answers of C12 trees; forged `V` from the constant first challenge |
| C82 | an accepted inner-product proof states the right inner product (false) | `forge`, a prover that makes the rounds first; all rounds in one linear equation |
| C83 | a prover accepted for too many challenges can be rewound: the soundness error of the inner-product and sum arguments | provers as strategies (`Spec/Provers`), pigeonhole over the rounds, then the extractors of C12 and C23 |
| C84 | the soundness error of the iterated reduction and of the range proof | forking lemma on rates of challenges, level by level, then the extractors of C15 and C18 |
| C85 | the soundness error of the aggregated sum argument, the batch equality proof, and liability proofs | forking lemma of C84; more than `order^(2m-1)` vectors of challenges lie in no hyperplane; then C66, C67, C68 |
| C86 | the values behind an accepted range proof cannot be replaced after the reduction (false) | `forgeRange`, a prover that makes the reduction first; Schwartz–Zippel and Cauchy–Schwarz for the number of other values |
| C87 | Challenges bind what is hashed into them | `Spec/Binding.lean`, `Props/Binding.lean`: for each oracle an encoding of its inputs, independent of the hash function, injective on inputs of the same shape |
| C88 | all nine-digit identifiers can be used together in a dense set (false) | `setR`, `attempts`: what calls leave behind, panics recovered; invariants `Untouched`, `Poisoned` of the vertex above the short path |
| C89 | a `Set` that panics changes nothing (false) | `setR`; the walk of `Get` along an unrelated path keeps its vertices and their stored records |
| C90 | the size of a liability proof depends on fan-out and depth only | lengths of all parts of what each prover returns (`Proofs/Lengths.lean`), by induction over the loops of the inner-product argument and the reduction; `C64_size_partial` |
| C91 | the lines the benchmark prints are averages of what their labels say (false for one) | steps of the calling goroutine with a time function (`Model/Report.lean`), `spent` of a kind of work; injectivity of the printed form |
| C92 | calls change no point that their caller holds | the functions once more with points as pointers into a memory with in-place operations (`Model/Ptr*.lean`); `Agrees`: same result as the model by values, no old cell written; sessions of calls |
| C93 | elements returned by vector operations may be modified by the caller (false for `MulV` with a zero scalar) | `NewCells`; a counterexample in every memory |
| C94 | the tests of the repository pass whatever they draw (false of `TestPolSparse`); what `TestUpdate` does not see | the test functions as programs over their draws; one theorem each |
| C95 | generators come from different hash inputs and can be any points | `Role`, `GeneratorsAre`, `combination`; hashing to the curve replaced by a programmed function |
| C96 | whether `Verify` answers depends on the lengths of the lists only | `ProofShape`, `NoSurplus`, `Cut`: lengths of lists only |
| C97 | an accepted proof has no entries that are not needed (false) | every verifier of the model is monotone in its lists of rounds; C96 gives the verdict on the trimmed proof |
| C98 | the root determines the amounts (false below vertices over the leaves that are written below more than once) | induction from the root down: equal commitments have equal openings, equal digests have equal commitments; for the violation the deviation polynomials (C40) of two histories and induction from the leaves up |
| C99 | a liability proof is good for one leaf only | the exact conditions of C02 and C08 for the two paths, subtracted; counting the solutions of a linear relation and the roots of unity |
| C100 | writes that leave every amount as it was leave the set as it was (false) | the stored vertices of a history (C40) are a function of blinding factors (C41), contents and deviations; induction from the leaves up, and for the root from the root down (C98) |
| C101 | a total of 2^63 or more stops every proof, of the total and of each liability, and nothing else does stop the total's | the root's last entry is the total (C39), ProveRange returns only for entries below 2^63 (C17), every liability proof has a range proof of the root |
| C102 | unreduced scalars change nothing that is stored, proved or accepted | second model of all functions with integer scalars (`Model/Raw*.lean`); its residues are the first model's, function by function; a fresh vertex has one child, so its `Plus` sum is exact, and later sums are taken with `ModAdd`, so what is encoded is reduced |
| C103 | `NewCommitment` accepts balanced vectors whatever the scalar arithmetic (false) | the check compares integers when `Plus` and `Equals` do not reduce |
| C104 | clients that choose requests after seeing answers, and apply any test to all they have seen, do not tell two histories apart but by a zero challenge | for a given transcript the requests are fixed, so C75 applies to it; sum over transcripts (`test_close`) |
| C105 | a set opened on the database of an earlier one: false, the amounts are lost; harmless if all is written again | the theorems on new sets hold for any contents of the database (C43, C44, C46–C48 with `C54_new_set`) |
| C106 | publishing after each of several batches of writes hides the amounts in lowest inner vertices that are not written to again; a further write to a lowest inner vertex shows the sum of its amounts to the clients there | the differences between the commitments of the two runs are constant in time (`offset_diff`), so one shift of the blinding factors matches all views (`over_likely`); the leak is one step of the deviation (`offset_step`) |
| C107 | `ProveLiability` returns the amount and a proof for every identifier that was written, also where nobody will accept the proof | no part of the prover reads the committed points but for hashing them: `range_run`, `newAggregatedArgument_run`, `prove_run` hold for any points, and `prove_returns` puts them together |
| C108 | `ProveLiability` while a `Set` is running: the reads are those of one moment; the proof is for the root before or after if the paths part at the root; otherwise a proof can be returned that no root accepts | depth `i` is new iff at least `L - i` writes were made, and both grow with `i`, so there is one cut (`moment`); an accepted proof forces every parent's digest to be the hash of the child read (`accepted_digests`) |
| C109 | several `Set`s at once: all take effect if callbacks do not overlap; two that both read the root before one writes it lose an update, and `ProveTot` states the wrong total | invariant over all interleavings: a stored vertex has its child's sum and digest unless the child is the last vertex written by a running `Set` (`Inv`, `Fresher`); each turn keeps it (`Inv.call`, `Between.turn`), at the end only the root is excepted |
| C110 | overlapping `Set`s return and break no vertex; setting all identifiers again repairs the sums | invariant over all event sequences: every stored vertex and every pending write is well-formed (`Anyhow`); `Put` at a written path takes the vertices on it out of the set of exceptions (`Inv.putAt`, `Inv.puts`) |
| C111 | map iteration order is invisible except in stored bytes | two runs kept related (`StateAlike`, `SetAlike`, `SameHeld`) call by call; the callback through `putAt_rel`; `encodeMap_inj` for the bytes |
| C112 | losses in the database stop calls but change no answer | one-sided simulation: the run over the poorer database panics or does the same (`Below`, `putAt_below`, `update_below`, `lossyCalls_below`) |
| C113 | two sets over one database answer for their own amounts | violated by `ProveTot`; invariant that the tree in memory is backed by stored vertices of the right form, whoever wrote them (`Backed`, `Keeps`, `putAt_backed`), and that memory does not depend on the database (`putAt_same`) |
| C114 | the exact calls of the database | a second version of the functions with a list of the calls; induction on the path for `putAt` with the invariant that the vertices in memory are those passed by writes and are backed by the database (`putAt_calls`, `own_find`) |
| C115 | a `Set` whose database calls fail can be repeated | invariant `Loose` of the vertices in memory and in the database: a vertex below which the last `Set` of every path has returned is exact, any other has at least decodable bytes whose entries are right for the settled children (`Loose.put`, induction on the path) |
| C116 | a second total for a root takes a point that is not published | C02; a combination of published powers is a polynomial in the secret without the term of degree N+1, so it meets that power at no more points than its degree |
| C117 | keys and sizes in the database | invariant that every value written is the encoding of a vertex (`Encoded`); the maps of the stored vertices have the touched children as keys (`stored_shape`); `put_footprint` for all other keys |
| C118 | `nil` pointers in proofs | memories with cells of no type; every verifier is monotone in what is in their place (`Mono`); pointers that an accepting run must have read (`Needs`) |
| C119 | values of the database cut short | decoding is monotone in trailing bytes (`fromBytes_append`), so a run over cut values is below the run over whole ones (`Below`, as for C112); no beginning of a DER value decodes (`readTlv_cut`) |
| C120 | calls and sizes do not depend on the amounts | the calls (C114) and the sizes (C117) are functions of the paths written; equal paths give equal functions (`historyAccesses_fst`) |
| C121 | points made by the provers | one count per operation of the memory model (`Costs`); a bit and its complement give one product together (`nonZero_bits`) |
| C122 | points made by `Verify` | an upper count for each part of `Verify`, early returns included (`Costs`); any proof can be put in memory (`Place`); surplus entries of `Vaggr` with a constant hash for the negation |
| C123 | points made by the calls of a liability set | an upper count for each function (`Costs`) in the model with points in memory; induction over the path for `Put` (`putAt_cost`), closed forms for the recursive counts of C121 |
| C124 | databases that answer anything | simulation: the data of a vertex after `Set` is its key alone, whatever is read (`update_data`, `putAt_same`); `Root` and the provers depend on memory only through the keys on the path, so two sets with equal paths and one database give equal proofs |
| C125 | points made by the setup | one exact count per operation of the memory model (`Costs`); all entries of `b` are non-zero (`nonZero_bVector`); the least power of two is below twice the length (`padded_le`) |
| C126 | databases that answer anything and fail, recovered panics | for every callback whatsoever `putAtR` writes the leaf first and leaves other leaves alone (`find_putAtR_self`, `find_putAtR_other`); induction over the attempts |
| C127 | exactly who knows the secret can open a root to other amounts | the shift of the blinding factors of C75, equal commitments layer by layer, then C44 and C47 for the second set; C04 for the converse |
| C128 | the parameters do not contain the point they leave out (false for few secrets) | two equal powers of a non-zero secret make a power of it 1; roots of unity are roots of X^d - 1 |
| C129 | an accepted liability proof cannot be changed by others (false for the last digest) | both proofs satisfy the same pairing equations; subtracting them and non-degeneracy give the difference of the openings |
| C130 | `nil` scalars and parts of proofs: no verdict changes, nothing accepted has a `nil` that counts | the checks with options (`Model/NilScalars`) give what the checks with values give, or panic (`Upto`), call by call |
| C131 | a liability proof is good for one root only and goes out of date with it (false for what `Root` returns later) | `Verify` compares the first commitments; one write adds a multiple of the change to the `V` of the root; else C98; C46 for the violation |
| C132 | a proof of the total is good for one root and one total (false for what `Root` returns later) | the accepted point is a linear function of `V` and the total (C02); one write adds a multiple of the change to `V` (C131) |
| C133 | an incomplete liability proof is never handed out (false for totals of `2^63` and more) | the invariant of the goroutines (C53), the range prover (C17) and the main goroutine, which returns whatever the range proofs do |
| C134 | any number of callers can verify a proof at once | the invariant of one call (C52) is kept by writes of other calls, which write what the call itself writes |
| C135 | proofs of totals add up, and can be moved to other roots | the equation of `TotalProof.Verify` is linear in root, proof and total |
| C136 | root and total read while a `Set` is running: each is that from before or after; the two fit unless the last write comes between them | the key of the root is written last (C61), `Root` and `ProveTot` read no other; C44 and C132 for the two sets |

## Findings: properties the code violates

Each has a theorem with the negation (usually for a whole class of inputs and with a concrete witness), and a
theorem `_partial` with what holds.

* **C11** `bp/innerprod.go:107` drops `P` from the first challenge: an accepted proof can be turned into one for any
  other claimed inner product by a publicly computable change of `P`.
* **C29** an identifier whose value does not have the tabulated number of digits is re-hashed and shares the path of
  its hash.
* **C31** `DigitPath` appends at most one zero, so small nine-digit identifiers get shorter paths, and `000000000` is
  a prefix of others.
* **C33** `IsPowerOfTwo(0)` never returns (reachable with fan-out 65535).
* **C40, C47** `verkle/tree.go:424` writes the sum at index `len(values)` instead of the fan-out; after the second write
  below a vertex of the last inner layer its commitment is wrong and its liability proofs do not verify. How wrong is
  computed exactly: a polynomial in the trapdoor given by the history (`Spec/Deviation.lean`). The commitment is right and
  proofs are accepted iff the trapdoor is a root; for positive amounts under different identifiers two of which share
  the vertex, there are at most fan-out + 1 roots.
* **C42** `Serialize` writes no payload (the callback never sees a `*Vertex`) and panics on an empty tree.
* **C46** `Root` keeps answering with the cached root after later `Set`s.
* **C48** `ProveLiability`/`Get` panic for identifiers whose path is a proper prefix of a written one.
* **C49, C50** `Verify` neither checks `len(lp.V)` nor compares the opened aggregate of digests with the digests: who
  knows the root's contents can prove any amount for any identifier.
* **C52, C53** when a goroutine panics, a schedule lets `Verify` return nil (resp. `ProveLiability` return with a nil range
  proof) before the process ends.
* **C59** `GeneratePublicParams` replaces generators after the digest was cached.
* **C60** positions are truncated to one byte (`pp`) or two bytes (`poe`) in the hash inputs.
* **C61** stopping between two database writes leaves parent and child in disagreement.
* **C62** `Verify` panics on proofs without `V` or without range proofs.
* **C63** dishonest roots can have negative totals.
* **C64, C65** `Size` leaves elements out.
* **C69** dense identifiers of the benchmark below 3^17 have too short a path for fan-out 3 (C31 again).
* **C70** `getIterations` accepts 0; then the averages divide by zero.
* **C76** vertices keep their blinding factor when they are updated: proofs from before and after a write give away the
  commitment to the changes with blinding factor zero.
* **C80** `NewVerkleTree` computes `fanOut + 2` as a `uint16`: trees of fan-out 65534 and 65535 panic on their first `Put`.
* **C81** `bp.NewInnerProductProver`/`Verify` drop the commitment from the first challenge (innerprod.go:107), so in the sum argument `x₀` is a constant of the parameters. `sum.NewArgument` called with `V = r·F + <v,Gs> + x₀·imbalance(v)·U` returns an accepted proof for an unbalanced `v`. C23 therefore assumes an opening of `V` over `F, Gs`.
* **C82** `computeNextParams` (innerprod.go:216) hashes `L`, `R` and the digest of the parameters: neither the statement nor the earlier rounds. The rounds can be made first and the statement afterwards. A false inner product is accepted for an honest commitment, and a sum argument for a commitment to an unbalanced vector.
* **C86** A challenge of the iterated reduction (ir.go:27, ir.go:74) is a hash of `A`, `B`, the parameters and the current commitment. With a mask `W` along `F` only, the reduction starts from `Σ v_i·Gs_i`, whatever `Q` and `x` are, so it can be made before `Q`. Values below `2^63` that agree with `v` at the reduction's challenges can then be looked for (a small lattice problem), and their bits put into `Q`: `VerifyRange` accepts a commitment to values out of range, for instance negative ones. C18 and C84 are about the interactive protocol, where the challenges come after `Q`.
* **C88** In a dense set a number below `fanout^(L-2)` has a path that can be a beginning of others. `Set("000000000")` first: every other identifier panics for ever (the root has a value without a digest, tree.go:313). `Set("000000000")` later: `Get` panics for multiples of the fan-out, and `ProveTot` omits their amounts.
* **C89** A `Set` that panics has already put the amount into the tree, and the deferred `Put` (tree.go:232-234, 355-359) stores the vertex as changed so far: `Get` and `ProveTot` have the amount although `Set` failed.
* **C91** `ProveLiability` starts the clock of the sum argument before it aggregates the point proofs (pol.go:434-438), so "sum proof times:" has that in it; `Verify` (pol.go:195-203) does not time the point proofs.
* **C93** `G1v.MulV` (common/math.go:333) returns the package variable `zeroG1` itself in place of a product with 0. Whoever modifies that element in place changes all later results of `MulV`, hence of `Commit`. No function of the library does (C92).
* **C94** `TestPolSparse` (pol/pol_test.go:24) fails for draws with sibling paths, because of C47. `TestUpdate` (pp/pointproofs_test.go:44) builds `m2` by appending to `m`, so it updates every entry to its old value: it also passes for an `Update` that returns the commitment unchanged.
* **C96** (bounds C62): `Verify` panics on an accepted proof from which the last entry of any list other than `W` and the digests is removed; it never panics on a proof that is long enough, whatever it contains.
* **C97** `Verify` ignores surplus rounds in the inner-product proofs and reductions and surplus range proofs: an accepted proof
  can be lengthened at will and stays accepted, so proofs are malleable and their size is not bounded by what is verified.
* **C98** The root does not determine the amounts: with paths differing in the last index only, the writes (0,m), (2,4m), (3,4m)
  and the writes (0,m), (3,7m), (2,m), (0,m), (0,m) give the same root for every trapdoor and all blinding factors, although
  the identifiers at 2 and 3 have different amounts. A consequence of C40.
* **C100** Writing an amount again is not harmless: if a client at index 0 is alone below the vertex over its leaf and its amount
  is written twice, no proof for this client verifies any more, and the root changes. A consequence of C40.
* **C103** `sum.NewCommitment` (sa.go:124-132) adds with `Plus`, does not reduce, and compares with `Equals`. If `Plus` returns
  unreduced integers it panics on balanced vectors of reduced scalars whose sum reaches the order, such as `(r-1, 1, 0)`, and accepts
  `(r-1, 1, r)`. Nothing in the library calls it; the tests pass because they leave the last entry unreduced.
* **C105** The database is not enough to go on after a restart: `NewLiabilitySet` starts with an empty tree in memory. `Get` and `ProveLiability` find nothing, `Root` gives nil, `ProveTot` still proves the old total, and the first `Set` overwrites the stored root by one with the new amount only: liabilities vanish from the proven total without an error.
* **C106** (`C106_neighbours_see_the_sum`): because `Put` adds the sum of the vertex at the wrong place on every write after the first (the deviation of C40) and keeps the blinding factor, a client that gets one proof before and one after a write to a neighbour, even a write that changes nothing, sees the sum of all amounts in the shared lowest inner vertex in the exponent of the difference of the two commitments. Amounts are small, so the sum can be searched for.
* **C107** (`C107_returned_and_rejected`, `C107_neighbours_get_rejected_proofs`): the rejected proofs of C47 are really handed out: `ProveLiability` returns them without an error, so the prover notices nothing.
* **C108** (`C108_violated`): `ProveLiability` running at the same time as `Set` can read an old vertex above a new one; it returns the amount, no error, and a proof that no root accepts. There are no locks, and `Put` writes the root last while `Get` reads it first.
* **C109** (`C109_violated`): two calls of `Set` at the same time can lose one: both return, `Get` has both amounts, but the stored root, and with it every total proved afterwards, lacks the first one. There are no locks around the read and the write of a vertex.
* **C110**: what C109 loses is repaired by setting every identifier again, one call after the other.
* **C111**: `Vertex.Bytes` encodes maps in iteration order, so equal vertices have different encodings; digests are taken of the commitments, not of these bytes, and nothing else shows the order.
* **C112**: missing values are noticed (`fetchVertex` panics, an empty value does not parse); old values are not.
* **C113**: two liability sets over one database overwrite each other's vertices: `ProveTot` and `Root` of the first give the total of the second, consistently; only `Get` keeps the two apart.
* **C122** (`C122_no_bound`): the lengths of `V`, `Vaggr` and `Waggr` are not checked against the path, and all of their points are multiplied: an accepted proof can cost the verifier as much work as it is long. All other lists cost nothing beyond what the parameters ask for.
* **C124** (`C124_violated`): the amounts are held twice, in the tree in memory and in the vertices of the database, and nothing compares them. `Get` gives the amount in memory; `Root`, `ProveTot` and `ProveLiability` use only the database. A database that answers with the vertices of other amounts makes them give accepted proofs of these.
* **C125** (`C125_new_set_counts`): `NewLiabilitySet` has `NewVerkleTree` make parameters of its own, with a new secret, and replaces them at once: `3F + 9` points of work for nothing.
* **C127** Whoever knows the secret drawn by `NewPublicParams` can publish a root first and choose the amounts afterwards: every
  assignment of amounts to the same identifiers has blinding factors that give the root already published, and all proofs
  are accepted. `NewPublicParams` draws the secret in the process that calls it; if that is the operator who also keeps the liability set,
  the published root binds nobody.
* **C128** `NewPublicParams` accepts every secret that it draws, also 0, 1, -1 and other roots of unity of order up to N+1, for which the
  left out point α^(N+1)·g1 is published (possibly as the generator in its place) and every total can be proved. There are at most
  1 + (N+1)(N+2)/2 such secrets, so a random draw does not hit them, but no client checks the parameters of others either.
* **C129** `Verify` requires as many digests as the path is long, but compares all except the last one: an accepted proof stays accepted
  with any last digest, so the bytes of a proof do not identify it.
* **C130** (with C118): a proof with a `nil` scalar or part makes `Verify` panic instead of returning an error, unless an error is found before it is used.
* **C131** (from C46): after `Root` has been called once, a proof from before a write is still accepted against what `Root` returns, with the old amount, and every proof made after the write is refused.
* **C132** (from C46): after `Root` has been called once and an amount has changed, the proof of `ProveTot` is refused against what `Root` returns; the one of the old total is accepted.
* **C133** (`pol/pol.go:392-400`): while the total is `2^63` or more, `ProveLiability` with `ParallelismEnabled` can return a proof whose range proof for the root is `nil`, before the panic of `ProveRange` in its goroutine ends the process.
* **C136** (`C136_violated`): `Root` and `ProveTot` cannot be read together while another goroutine calls `Set`: if the root is written between the two reads, the total proof is refused against the root.

## Trusted base

* Lean's kernel (4.33.0) and the axioms `propext`, `Classical.choice`, `Quot.sound`; every theorem named in
  `MANIFEST.json` depends on no others (a subset for the elementary ones). No axiom is added; there is no `sorry`,
  `native_decide` or `bv_decide`.
* The reading of the Go source into the model, function by function (citations in the comments).
* The behaviour of IBM/mathlib, gnark-crypto, `encoding/asn1`, `math/big`, `sync` and the Go runtime as described above.

### Modelled

`pp/pointproofs.go`, `bp/innerprod.go`, `bp/ir.go`, `bp/range.go`, `sum/sa.go`, `poe/poe.go`, `sparse/tree.go`,
`verkle/tree.go`, `pol/pol.go`, `bench/main.go`: all functions. `common/math.go`: all functions that other packages use, in
particular the vectors and `FieldElementFromBytes` down to the 64-bit words of the digest. `encoding/asn1`: encoding and
decoding of the two record types. The test functions, as functions of what they draw (C94).

### Not modelled

* What the benchmark prints before its last lines; the LevelDB database of the benchmark.
* Proofs with `nil` points and `nil` scalars at once, and `nil` scalars with range proofs checked in parallel (each alone: C118, C130); proofs whose sum
  argument has an unreduced `c`; points outside the group (mathlib's decoding checks).
* What `ProveTot`, `ProveLiability` and `Root` give after recovered panics over a database that changes bytes (any answers, up to the first
  panic: C124; `Get`: C126; cuts: C119; losses between calls: C112; failing calls in `Set`: C115; interruptions: C61, C89; a read that fails once in `Get` or a proof is a loss before the call and a return of the value after it); memory limits; integer overflow of slice lengths (`int` is unbounded; where an
  `int64` or `uint16` conversion matters it is modelled: amounts, path components, positions in hash inputs).
* Probability: there are no random variables; hiding (C05) is a bijection statement, and soundness errors (C83–C85) are
  numbers of challenges.
