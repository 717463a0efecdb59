{"id": "C01", "title": "Every opening of a vector commitment verifies", "statement": "For public parameters of size N>=2, any vector m of N scalars and any index i<N, Verify(pp, mi, π, Commit(pp,m), i) returns nil for (mi,π)=Open(pp,i,m), and mi is m[i].", "quantifier": "all N>=2, all trapdoors α, all vectors, all indices", "why_tests_cant": "A test samples one N and random vectors; the claim is for all sizes, indices and scalars (including zeros, which take a separate code path).", "anchors": ["pp/pointproofs.go:NewPublicParams", "pp/pointproofs.go:Commit", "pp/pointproofs.go:Open", "pp/pointproofs.go:Verify", "common/math.go:G1v.MulV", "common/math.go:G1v.Sum"]}
{"id": "C02", "title": "An opening is accepted exactly when it is the right group element", "statement": "For a commitment C, index i and claimed value mi, Verify accepts π if and only if π = α^(N-i)·C - mi·α^(N+1)·g1; in particular at most one π is ever accepted for (C,i,mi), and an honestly generated π is rejected for any other value.", "quantifier": "all commitments (also adversarial ones), indices, values and proof points", "why_tests_cant": "Rejection must hold for every wrong proof; tests never enumerate adversarial points.", "anchors": ["pp/pointproofs.go:Verify", "pp/pointproofs.go:NewPublicParams"]}
{"id": "C03", "title": "Position binding", "statement": "If Verify accepts two openings of the same commitment at the same index with different values, then the two proofs explicitly yield α^(N+1)·g1, the one power that NewPublicParams withholds.", "quantifier": "all commitments, indices and pairs of accepted openings", "why_tests_cant": "It is a statement about every adversary's output, not about honest runs.", "anchors": ["pp/pointproofs.go:Verify", "pp/pointproofs.go:NewPublicParams"]}
{"id": "C04", "title": "Commitments are linear and bind the whole vector", "statement": "Commit(m)+Commit(m') is the commitment to m+m', scaling likewise; if two different vectors have the same commitment then α is a root of an explicit non-zero polynomial of degree at most N computed from them.", "quantifier": "all N, all vectors", "why_tests_cant": "Needs all pairs of vectors.", "anchors": ["pp/pointproofs.go:Commit"]}
{"id": "C05", "title": "A commitment whose last entry is a uniform blinding factor hides the rest", "statement": "For any two vectors that agree on nothing, and any blinding factor for the first, there is exactly one blinding factor for the second giving the same commitment (α non-zero).", "quantifier": "all vectors and blinding factors", "why_tests_cant": "A statement about the whole distribution of blinding factors.", "anchors": ["pp/pointproofs.go:Commit", "verkle/tree.go:updateLayerAboveLeaves"]}
{"id": "C06", "title": "In-place Update equals committing to the changed vector", "statement": "Update(pp,C,m,mi,i) turns a commitment to m into the commitment to m with entry i replaced by mi, for any sequence of updates.", "quantifier": "all vectors, all sequences of (index,value) updates", "why_tests_cant": "Sequences of arbitrary length.", "anchors": ["pp/pointproofs.go:Update"]}
{"id": "C07", "title": "Aggregated openings verify", "statement": "For any list of vectors and indices, Aggregate of the individual openings is accepted by VerifyAggregation for Σ = <opened values, RO challenges>, whatever the challenge function is.", "quantifier": "all numbers of commitments, vectors, indices and challenge functions", "why_tests_cant": "Test fixes two commitments and index 0.", "anchors": ["pp/pointproofs.go:Aggregate", "pp/pointproofs.go:VerifyAggregation", "pp/pointproofs.go:RO"]}
{"id": "C08", "title": "Aggregated opening is binding on the aggregate", "statement": "VerifyAggregation accepts (π,Σ) exactly when Σ_k t_k·α^(N-i_k)·C_k = π + Σ·α^(N+1)·g1; two accepted pairs with different Σ for the same commitments and indices yield α^(N+1)·g1.", "quantifier": "all commitments, indices, proofs", "why_tests_cant": "Adversarial proofs.", "anchors": ["pp/pointproofs.go:VerifyAggregation"]}
{"id": "C09", "title": "Inner-product argument is complete", "statement": "For any power-of-two length, any vectors a,b and any generators, NewInnerProdArgument(pp,a,b).Prove() is accepted by Verify, provided no Fiat-Shamir challenge is zero.", "quantifier": "all lengths 2^k, vectors, generators, hash functions", "why_tests_cant": "Recursion of arbitrary depth over arbitrary field elements.", "anchors": ["bp/innerprod.go:NewInnerProdArgument", "bp/innerprod.go:Prove", "bp/innerprod.go:Verify", "bp/innerprod.go:prove", "bp/innerprod.go:verify", "bp/innerprod.go:computeNextParams"]}
{"id": "C10", "title": "Inner-product prover refuses lengths it cannot fold", "statement": "Prove panics exactly when the vectors' length is not a power of two (given equal lengths of a, b, G and H), and otherwise returns 2*log2(n) group elements.", "quantifier": "all lengths", "why_tests_cant": "All lengths.", "anchors": ["bp/innerprod.go:prove", "common/math.go:Vec.InnerProd", "common/math.go:Vec.Exp"]}
{"id": "C11", "title": "The claimed inner product is bound to the statement by the first challenge", "statement": "Once an inner-product proof is accepted for (P,C), it must not be possible to reuse it for another claimed inner product C' by a publicly computable change of P. (Expected from protocol 1 of Bulletproofs, where the first challenge hashes P and C.)", "quantifier": "all accepted proofs and all C'", "why_tests_cant": "Adversarial statement; no test tries to maul a proof.", "anchors": ["bp/innerprod.go:computeInstanceSpecificParams"]}
{"id": "C12", "title": "Inner-product argument is special-sound", "statement": "From a tree of accepting transcripts of the folding rounds with challenges whose squares are distinct, one can compute vectors a,b opening the statement, or a non-trivial linear relation among the generators.", "quantifier": "all depths, all adversarial transcripts", "why_tests_cant": "Adversarial transcripts of arbitrary depth.", "anchors": ["bp/innerprod.go:verify", "bp/innerprod.go:computeNextParams"]}
{"id": "C13", "title": "Iterated reduction is complete", "statement": "For power-of-two length >=2 and V a commitment to v, IterativeVerify accepts the (Δ,u) produced by IterativeReduce and returns the same challenges and the same reduced value, provided no challenge is zero.", "quantifier": "all lengths 2^k, k>=1, vectors, generators, hash functions", "why_tests_cant": "Arbitrary recursion depth; the existing test has this check commented out.", "anchors": ["bp/ir.go:IterativeReduce", "bp/ir.go:IterativeVerify"]}
{"id": "C14", "title": "The reduced value is the multilinear evaluation of the vector", "statement": "The scalar returned by IterativeReduce equals Σ_i v_i·Π_j x_j^{bit_j(i)} with the challenges taken in reversed order.", "quantifier": "all lengths 2^k, vectors, challenges", "why_tests_cant": "The test checks one length.", "anchors": ["bp/ir.go:IterativeReduce", "bp/range.go:bitDecomposition", "common/math.go:Vec.PowBitVec", "common/math.go:Vec.Product", "common/math.go:Vec.Reverse"]}
{"id": "C15", "title": "Iterated reduction is special-sound", "statement": "From accepting transcripts for four distinct non-zero challenges per round one can compute a vector opening the commitment whose multilinear evaluation is the claimed value, or a non-trivial relation among the generators.", "quantifier": "all depths, adversarial transcripts", "why_tests_cant": "Adversarial.", "anchors": ["bp/ir.go:IterativeVerify"]}
{"id": "C16", "title": "Range proofs of in-range vectors verify", "statement": "For any power-of-two n>=2, any vector of n values below 2^63, any blinding factor and V its commitment, ProveRange followed by VerifyRange accepts, provided the challenges are non-zero.", "quantifier": "all n=2^k, vectors with entries in [0,2^63), randomness, hash functions", "why_tests_cant": "One vector of equal values is tested.", "anchors": ["bp/range.go:ProveRange", "bp/range.go:VerifyRange", "bp/range.go:computeD", "bp/range.go:computeP", "bp/range.go:computeZ"]}
{"id": "C17", "title": "The range prover refuses out-of-range values", "statement": "ProveRange panics whenever some value is 2^63 or larger (as a canonical residue), so it never emits a proof for such a vector.", "quantifier": "all vectors", "why_tests_cant": "All out-of-range vectors.", "anchors": ["bp/range.go:ProveRange", "common/math.go:Bits"]}
{"id": "C18", "title": "An accepted range proof proves that every value is in range", "statement": "From sufficiently many accepted transcripts of the range proof for one commitment V (same first messages, different challenges) one computes an opening of V, and either every opened value is below 2^63 or a non-trivial linear relation among the public generators is found. In particular a prover who opens V to a value of 2^63 or more (for example a wrapped negative) yields such a relation. VerifyRange accepts exactly the accepted transcripts whose challenges are the hashes.", "quantifier": "all groups and generators, all 2^k values, all adversarial transcript trees", "why_tests_cant": "Soundness is about all cheating provers.", "anchors": ["bp/range.go:VerifyRange", "bp/range.go:ProveRange"]}
{"id": "C19", "title": "Sum arguments for balanced vectors verify", "statement": "If the last entry is the sum of the others and V commits to the vector, Verify accepts the proof returned by NewArgument (challenges non-zero).", "quantifier": "all lengths 2^k, vectors, randomness", "why_tests_cant": "All lengths and vectors.", "anchors": ["sum/sa.go:NewArgument", "sum/sa.go:Verify", "sum/sa.go:NewPublicParams"]}
{"id": "C20", "title": "Aggregated sum arguments verify", "statement": "For any number of balanced vectors, VerifyAggregated accepts NewAggregatedArgument's proof.", "quantifier": "any number of vectors, any lengths 2^k", "why_tests_cant": "Any number of vectors.", "anchors": ["sum/sa.go:NewAggregatedArgument", "sum/sa.go:VerifyAggregated", "sum/sa.go:createHVZKChallenge"]}
{"id": "C21", "title": "NewCommitment accepts exactly the balanced vectors", "statement": "NewCommitment panics if and only if the last entry differs from the sum of the others (length >= 2), and otherwise returns r·F + Σ v_i·Gs_i.", "quantifier": "all vectors", "why_tests_cant": "All vectors.", "anchors": ["sum/sa.go:NewCommitment"]}
{"id": "C22", "title": "An unbalanced vector cannot be proved by the honest prover", "statement": "With V the commitment to v, the proof returned by NewArgument is accepted if and only if the last entry of v is the sum of the others (U and challenges non-zero).", "quantifier": "all vectors", "why_tests_cant": "Needs all unbalanced vectors.", "anchors": ["sum/sa.go:NewArgument", "sum/sa.go:Verify"]}
{"id": "C23", "title": "Sum argument is special-sound", "statement": "If the party proving knows an opening (r,v) of V and, after sending W and c, answers three distinct challenges with accepted inner-product transcripts, then v is balanced, or a non-trivial linear relation among the generators F, Gs, H, U can be computed from the scalars of the transcripts.", "quantifier": "adversarial transcripts", "why_tests_cant": "Adversarial.", "anchors": ["sum/sa.go:Verify"]}
{"id": "C24", "title": "Batch equality proofs of equal entries verify", "statement": "For any power-of-two number of pairs of committed vectors with v_k[I_k]=w_k[J_k], all indices below the blinding position, Equalities.Verify accepts Equalities.Prove's proof.", "quantifier": "all batch sizes 2^k, vector sizes, indices, randomness", "why_tests_cant": "Any batch size and index pattern.", "anchors": ["poe/poe.go:Equalities.Prove", "poe/poe.go:Equalities.Verify"]}
{"id": "C25", "title": "Batch equality proofs of unequal entries are rejected", "statement": "For honestly run Equalities.Prove on committed vectors, Verify accepts if and only if Σ_k t_{2k+1}·(w_k[J_k]-v_k[I_k]) = 0; so a single unequal pair with non-zero challenge is always rejected.", "quantifier": "all batches", "why_tests_cant": "All unequal batches.", "anchors": ["poe/poe.go:Equalities.Prove", "poe/poe.go:Equalities.Verify"]}
{"id": "C26", "title": "Single equality proofs", "statement": "Equality.Prove panics if the two entries differ or the lengths differ, and otherwise its proof is accepted by Equality.Verify.", "quantifier": "all vectors, indices, randomness", "why_tests_cant": "All vectors.", "anchors": ["poe/poe.go:Equality.Prove", "poe/poe.go:Equality.Verify"]}
{"id": "C27", "title": "Equality proof is special-sound", "statement": "From accepting executions for independent challenges one computes accepted point openings of V at I and of W at J to the same value.", "quantifier": "adversarial transcripts", "why_tests_cant": "Adversarial.", "anchors": ["poe/poe.go:Equality.Verify"]}
{"id": "C28", "title": "Sparse identifiers map to well-formed paths", "statement": "Whenever HexId2PathForFanOut(fanout)(s) returns, the path has exactly the tabulated length and every component is below fanout.", "quantifier": "all identifier strings, all supported fan-outs, any hash function", "why_tests_cant": "Random ids only sample the space.", "anchors": ["sparse/tree.go:HexId2PathForFanOut", "sparse/tree.go:convertPathWithFanout", "sparse/tree.go:ExpectedHexPathLengthByFanOut"]}
{"id": "C29", "title": "Different sparse identifiers get different leaves", "statement": "Two 64-character hexadecimal identifiers with different numeric values are mapped to different paths.", "quantifier": "all pairs of identifiers", "why_tests_cant": "Pairs of identifiers.", "anchors": ["sparse/tree.go:HexId2PathForFanOut", "sparse/tree.go:hash"]}
{"id": "C30", "title": "Dense identifiers map to well-formed, distinct paths", "statement": "For nine-digit decimal identifiers DigitPath returns components below fanout that encode the number in base fanout, so different identifiers get different paths; strings that are not nine characters or not decimal panic.", "quantifier": "all strings, all fan-outs", "why_tests_cant": "10^9 identifiers times fan-outs.", "anchors": ["sparse/tree.go:DigitPath"]}
{"id": "C31", "title": "Dense identifiers all have the same depth", "statement": "For every nine-digit identifier DigitPath(fanout) returns a path of length DigitPathLen(fanout), so no liability sits above another.", "quantifier": "all nine-digit identifiers", "why_tests_cant": "10^9 identifiers times fan-outs.", "anchors": ["sparse/tree.go:DigitPath", "sparse/tree.go:DigitPathLen"]}
{"id": "C32", "title": "DigitPathLen is the least sufficient depth", "statement": "For fanout>=2, DigitPathLen returns the least L>=1 with fanout^L > 10^9.", "quantifier": "all fan-outs >= 2", "why_tests_cant": "All fan-outs.", "anchors": ["sparse/tree.go:DigitPathLen"]}
{"id": "C33", "title": "IsPowerOfTwo decides powers of two and always returns", "statement": "For every 16-bit n, IsPowerOfTwo(n) returns, and returns true exactly for 2,4,8,...,32768.", "quantifier": "all 16-bit inputs", "why_tests_cant": "Termination on all inputs.", "anchors": ["common/math.go:IsPowerOfTwo"]}
{"id": "C34", "title": "The sparse tree is a map from paths", "statement": "After any sequence of Puts whose paths have equal length, Get(id) returns the value of the last Put whose path equals id's path and false if there is none.", "quantifier": "all sequences of Put, all ID2Path functions with equal-length paths, all update callbacks", "why_tests_cant": "All histories.", "anchors": ["sparse/tree.go:Tree.Put", "sparse/tree.go:Tree.Get"]}
{"id": "C35", "title": "Put's update protocol", "statement": "Put calls UpdateInnerVertex exactly once for every proper prefix of the path, from deepest to root, with the vertex's key, its previous data, the current data of its children by index, the leaf flag only on the first call, and the index of the child just changed.", "quantifier": "all trees and paths", "why_tests_cant": "All depths and trees.", "anchors": ["sparse/tree.go:Tree.Put", "sparse/tree.go:Vertex.rawData"]}
{"id": "C36", "title": "Aggregating trees keep every inner vertex consistent with its children", "statement": "If the update callback is a function of the children's data, then after any history every inner vertex holds that function of its children's current data (e.g. the sum of all leaves below).", "quantifier": "all histories", "why_tests_cant": "All histories.", "anchors": ["sparse/tree.go:Tree.Put"]}
{"id": "C37", "title": "Vertex serialization round-trips", "statement": "FromBytes(v.Bytes()) reproduces v (blinding factor, sum, values, digests, V, and W or its absence), for every order in which the maps are iterated.", "quantifier": "all vertices, all map iteration orders", "why_tests_cant": "Map iteration order is random; maps arbitrary.", "anchors": ["verkle/tree.go:Vertex.Bytes", "verkle/tree.go:Vertex.FromBytes"]}
{"id": "C38", "title": "Different vertices use different database keys", "statement": "The database key of a vertex determines its path, and the root is the only vertex with the empty key.", "quantifier": "all paths", "why_tests_cant": "All pairs of paths.", "anchors": ["sparse/tree.go:Tree.Put", "verkle/tree.go:updateInnerLayer", "pol/pol.go:ProveTot"]}
{"id": "C39", "title": "Every stored vertex carries the exact sum of the liabilities below it", "statement": "After any history of Puts, the vertex stored for each inner path has sum equal to the sum of the latest values put at ids below it, and its value at child index p equals that child's sum.", "quantifier": "all histories", "why_tests_cant": "All histories, including overwriting and shared prefixes.", "anchors": ["verkle/tree.go:updateInnerLayer", "verkle/tree.go:updateLayerAboveLeaves", "verkle/tree.go:updateSum"]}
{"id": "C40", "title": "Every stored commitment commits to the vertex's own contents", "statement": "After any history of Puts, for every stored vertex V = Commit(values, sum, blinding factor), and above the leaf layer W = Commit(child digests) with each digest that of the stored child.", "quantifier": "all histories", "why_tests_cant": "All histories; the unit tests never put twice below the same last-layer vertex.", "anchors": ["verkle/tree.go:updateInnerLayer", "verkle/tree.go:updateLayerAboveLeaves", "pp/pointproofs.go:Update"]}
{"id": "C41", "title": "A vertex keeps its blinding factor", "statement": "The blinding factor of a stored vertex is the one drawn when the vertex was created, whatever Puts follow.", "quantifier": "all histories", "why_tests_cant": "All histories.", "anchors": ["verkle/tree.go:updateInnerLayer", "verkle/tree.go:updateLayerAboveLeaves"]}
{"id": "C42", "title": "Serialize writes the tree's contents", "statement": "The output of Tree.Serialize determines the stored vertices: trees with different liabilities at the same ids have different outputs.", "quantifier": "all trees", "why_tests_cant": "All trees.", "anchors": ["verkle/tree.go:Tree.Serialize", "sparse/tree.go:Vertex.Serialize"]}
{"id": "C43", "title": "A liability set behaves like a map", "statement": "After any sequence of Set calls with non-negative amounts, Get(id) returns the amount last Set for id (for ids whose paths have the tree's depth), and false for ids never set; Set with a negative amount panics.", "quantifier": "all histories", "why_tests_cant": "All histories.", "anchors": ["pol/pol.go:Set", "pol/pol.go:Get", "verkle/tree.go:Tree.Get"]}
{"id": "C44", "title": "The total proof states and proves the exact total", "statement": "After any non-empty history of Sets with total below 2^63, ProveTot returns the sum of the latest amounts, and its proof is accepted by TotalProof.Verify against the commitment of the current root.", "quantifier": "all histories, fan-outs, randomness", "why_tests_cant": "All histories.", "anchors": ["pol/pol.go:ProveTot", "pol/pol.go:openSumFromVertex", "pol/pol.go:TotalProof.Verify"]}
{"id": "C45", "title": "A root commitment has one total", "statement": "If TotalProof.Verify accepts two proofs with different Sum fields for the same V, the proofs yield α^(N+1)·g1.", "quantifier": "all adversarial proofs", "why_tests_cant": "Adversarial.", "anchors": ["pol/pol.go:TotalProof.Verify"]}
{"id": "C46", "title": "Root returns the current root", "statement": "Root() returns the commitments of the root vertex as of the latest Set.", "quantifier": "all interleavings of Set and Root", "why_tests_cant": "All interleavings; tests call Root once at the end.", "anchors": ["pol/pol.go:Root", "pol/pol.go:DBMemorizeRoot.Get", "pol/pol.go:NewLiabilitySet"]}
{"id": "C47", "title": "Liability proofs verify", "statement": "After any history of Sets (total below 2^63), for every id that was set, ProveLiability returns its latest amount with a proof that LiabilityProof.Verify accepts against the current root (challenges non-zero).", "quantifier": "all histories, ids, randomness", "why_tests_cant": "All histories.", "anchors": ["pol/pol.go:ProveLiability", "pol/pol.go:LiabilityProof.Verify"]}
{"id": "C48", "title": "No proof for unknown ids", "statement": "ProveLiability(id) reports false, without panicking, for an id whose path was never set, whatever else was set.", "quantifier": "all histories", "why_tests_cant": "All histories.", "anchors": ["pol/pol.go:ProveLiability", "verkle/tree.go:Tree.Get"]}
{"id": "C49", "title": "A verified liability is bound to the root", "statement": "For a fixed root (V,W) and id, an accepted LiabilityProof cannot state an amount other than the one committed at the id's leaf under that root (short of breaking the commitments or the hash).", "quantifier": "all adversarial proofs", "why_tests_cant": "Adversarial provers.", "anchors": ["pol/pol.go:LiabilityProof.Verify"]}
{"id": "C50", "title": "Verify checks the hash chain", "statement": "LiabilityProof.Verify accepts only if each vertex's digest is the value committed in the parent's W at the path index.", "quantifier": "all adversarial proofs", "why_tests_cant": "Adversarial provers.", "anchors": ["pol/pol.go:LiabilityProof.Verify", "pol/pol.go:checkCommitmentToInnerVertex", "pol/pol.go:checkCommitmentToLeafVertex"]}
{"id": "C51", "title": "What an accepted liability proof guarantees", "statement": "If Verify accepts, then the first V and W are the published root, the digests are the hashes of the following vertices, every vertex's range proof, the aggregated sum argument, the equality proof and the aggregated opening are accepted, and the last V opens to the stated amount at the last path index.", "quantifier": "all proofs", "why_tests_cant": "Adversarial.", "anchors": ["pol/pol.go:LiabilityProof.Verify"]}
{"id": "C52", "title": "Parallel verification gives the sequential verdict", "statement": "Under every interleaving of the range-proof goroutines, Verify's verdict is the same as with parallelism disabled.", "quantifier": "all schedules, all proofs", "why_tests_cant": "Schedules cannot be enumerated by tests.", "anchors": ["pol/pol.go:LiabilityProof.Verify"]}
{"id": "C53", "title": "Parallel proving puts every range proof in its place", "statement": "Under every interleaving of the proving goroutines, ProveLiability returns only after all range proofs are present, each at the index of its own vertex.", "quantifier": "all schedules", "why_tests_cant": "Schedules.", "anchors": ["pol/pol.go:ProveLiability"]}
{"id": "C54", "title": "Public parameters fit together", "statement": "For every supported fan-out and tree type, GeneratePublicParams gives commitment parameters of size fanout+2, sum/range generators equal to the first fanout+1 commitment bases with the next one as blinding base, and an equality-argument size that equals the padded number of layers of every full-depth path.", "quantifier": "all supported fan-outs and tree types", "why_tests_cant": "All fan-outs.", "anchors": ["pol/pol.go:GeneratePublicParams"]}
{"id": "C55", "title": "Challenges are canonical field elements", "statement": "FieldElementFromBytes maps every 32-byte digest to a reduced scalar, the final conditional subtraction is never taken, and the result is zero only for six specific digests; any other length panics.", "quantifier": "all byte strings", "why_tests_cant": "2^256 digests.", "anchors": ["common/math.go:FieldElementFromBytes", "common/math.go:feFrom256Bits"]}
{"id": "C56", "title": "Bit decomposition is exact", "statement": "Bits(n,L) consists of 0/1 entries whose little-endian value is n, has length max(L, bit length of n), and BitsBigEndian is its reverse.", "quantifier": "all scalars and lengths", "why_tests_cant": "All scalars.", "anchors": ["common/math.go:Bits", "common/math.go:BitsBigEndian", "common/math.go:ReverseBits", "common/math.go:Vec.Bits"]}
{"id": "C57", "title": "Vector operations are the mathematical ones", "statement": "Vec/G1v/G2v operations compute the stated entrywise results for all lengths, panic exactly on the documented mismatches, and Evens/Odds interleave back to the original vector.", "quantifier": "all vectors", "why_tests_cant": "All lengths.", "anchors": ["common/math.go"]}
{"id": "C58", "title": "Verification does not depend on scratch fields of the proof", "statement": "VerifyRange, sum Verify and Equalities.Verify overwrite the inner-product statement before using it: the verdict is independent of its previous content and repeating a verification gives the same verdict.", "quantifier": "all proofs, all previous contents", "why_tests_cant": "All proofs.", "anchors": ["bp/range.go:VerifyRange", "sum/sa.go:Verify", "poe/poe.go:Equalities.Verify"]}
{"id": "C59", "title": "Fiat-Shamir digests cover the parameters in use", "statement": "The digest hashed into the range proof's challenges is the hash of the generators that the proof uses.", "quantifier": "all parameters from GeneratePublicParams", "why_tests_cant": "All parameters.", "anchors": ["bp/range.go:RangeProofPublicParams.Digest", "pol/pol.go:GeneratePublicParams"]}
{"id": "C60", "title": "Aggregation challenges are domain separated", "statement": "The hash inputs of the aggregation challenges for different positions differ.", "quantifier": "all positions", "why_tests_cant": "All positions.", "anchors": ["pp/pointproofs.go:RO", "poe/poe.go:RO"]}
{"id": "C61", "title": "A Set interrupted between database writes leaves a consistent database", "statement": "If the process stops after any prefix of the database writes of a Set, the stored vertices still satisfy the sum relation between parent and child.", "quantifier": "all crash points", "why_tests_cant": "Crash points.", "anchors": ["verkle/tree.go:updateInnerLayer", "sparse/tree.go:Tree.Put"]}
{"id": "C62", "title": "Verify returns an error, not a crash, on malformed proofs", "statement": "For every LiabilityProof value, Verify returns (nil or an error) without a run-time panic.", "quantifier": "all malformed proofs", "why_tests_cant": "All shapes of malformed proofs.", "anchors": ["pol/pol.go:LiabilityProof.Verify"]}
{"id": "C63", "title": "Accepted totals are non-negative", "statement": "TotalProof.Verify accepts only proofs whose Sum is non-negative.", "quantifier": "all adversarial commitments", "why_tests_cant": "Adversarial.", "anchors": ["pol/pol.go:TotalProof.Verify"]}
{"id": "C64", "title": "Size counts every transmitted element", "statement": "LiabilityProof.Size is the total encoded length of all group elements and scalars in the proof.", "quantifier": "all proofs", "why_tests_cant": "All proofs.", "anchors": ["pol/pol.go:LiabilityProof.Size", "sum/sa.go:Proof.Size", "bp/range.go:RangeProof.Size"]}
{"id": "C65", "title": "Size of the public parameters counts every parameter once", "statement": "PublicParams.Size is the total encoded length of the different group elements in the parameters.", "quantifier": "all parameters from GeneratePublicParams", "why_tests_cant": "All fan-outs and parameters.", "anchors": ["pol/pol.go:PublicParams.Size"]}
{"id": "C66", "title": "Aggregated sum argument is sound", "statement": "VerifyAggregated convinces the verifier that every one of the committed vectors is balanced: a prover who knows openings of the m commitments and can answer m distinct combination challenges, each with three inner challenges and a full tree of inner-product transcripts, has only balanced vectors or knows a non-trivial linear relation among the generators. VerifyAggregated is Verify for the combination of the commitments with the powers of a hash of all of them.", "quantifier": "all groups, generators, numbers of commitments, openings, transcript trees", "why_tests_cant": "A test can only try particular cheating strategies; this covers every prover, and every way that imbalances of several vectors may cancel.", "anchors": ["sum/sa.go:Proof.VerifyAggregated", "sum/sa.go:createHVZKChallenge", "sum/sa.go:Proof.Verify"]}
{"id": "C67", "title": "Batch equality proof is sound", "statement": "Equalities.Verify convinces the verifier that for every pair k the entry I[k] of the vector behind V[k] equals the entry J[k] of the vector behind W[k]: from a prover that answers two distinct challenges x, each with enough challenges t that no affine function vanishes on all of them, one computes, with scalars alone, openings that the point-proof verifier accepts for V[k] at I[k] and W[k] at J[k] with the same value, or a non-trivial linear relation among the generators.", "quantifier": "all curves with a non-degenerate pairing, parameters, batches of size a power of two, provers (transcript trees)", "why_tests_cant": "Soundness quantifies over all provers; an error may cancel between pairs of the batch for particular challenges only.", "anchors": ["poe/poe.go:Equalities.Verify", "bp/innerprod.go:InnerProductProof.Verify", "pp/pointproofs.go:Verify"]}
{"id": "C68", "title": "Proven amounts add up to at most the proven total", "statement": "Take any number of liability proofs, accepted by LiabilityProof.Verify for different ids, with one commitment per layer and agreeing on the commitments of common ancestors, and a TotalProof accepted for their common root. From provers that can answer enough challenges, either no amount is negative and the amounts add up to at most the proven total, or one computes, with scalars alone, a non-trivial linear relation among the hashed generators or the element alpha^(N+1)*g1 that the parameters leave out. So the issuer of the total cannot hide liabilities.", "quantifier": "all groups with a non-degenerate pairing, parameters of GeneratePublicParams, numbers of proofs, ids, commitments, amounts, provers (transcript trees)", "why_tests_cant": "It speaks about every cheating issuer, for any set of clients; an issuer may use wrap-around modulo the group order, negative entries, or entries that differ between clients.", "anchors": ["pol/pol.go:LiabilityProof.Verify", "pol/pol.go:TotalProof.Verify", "bp/range.go:VerifyRange", "sum/sa.go:Proof.VerifyAggregated", "poe/poe.go:Equalities.Verify"]}
{"id": "C69", "title": "Identifiers made by the benchmark are valid", "statement": "From 32 random bytes the benchmark makes an identifier of 64 hexadecimal digits with the same value for sparse trees, and one of nine decimal digits for dense trees, whose path has the full depth of the tree for every fan-out that is benchmarked. (False for fan-out 3, where identifiers below 3^17 get a path that is too short.)", "quantifier": "all byte strings drawn, all fan-outs of the benchmark", "why_tests_cant": "The benchmark draws its identifiers at random; a short path appears for a small share of them, only with fan-out 3.", "anchors": ["bench/main.go:main", "sparse/tree.go:DigitPath", "sparse/tree.go:HexId2PathForFanOut"]}
{"id": "C70", "title": "The benchmark runs to its end", "statement": "For all settings that are accepted from the environment, the benchmark finds every liability it looks for, every proof it makes is accepted, and it reports average sizes for all fan-outs. (False: ITERATIONS=0 is accepted and makes every round panic. True when there is at least one iteration, no other write touches the vertex over the leaf of a measured identifier, and no challenge is zero.)", "quantifier": "all environments, random draws, fan-outs, both kinds of trees", "why_tests_cant": "It depends on collisions between random identifiers, on all settings of the environment, and on the values of hashes.", "anchors": ["bench/main.go:main", "bench/main.go:benchmarkFanout", "bench/main.go:benchmarkVerifyTot", "bench/main.go:populateLiabilitySet", "bench/main.go:measurePPGen", "bench/main.go:getIterations"]}
{"id": "C71", "title": "Averages are averages", "statement": "Avg of a non-empty list of non-negative measurements, whose sum fits 63 bits, is the sum divided by the number, rounded down; it lies between any lower and upper bound of the measurements. Avg of an empty list panics.", "quantifier": "all lists of measurements", "why_tests_cant": "Overflow, rounding and empty lists are corner cases of an unbounded set of lists.", "anchors": ["bench/main.go:sizes.Avg", "bench/main.go:durations.Avg"]}
{"id": "C72", "title": "The sum argument tells nothing about the vector", "statement": "If a commitment opens to two vectors that both add up (last entry = sum of the others), then every proof that NewArgument or NewAggregatedArgument can return with a non-zero challenge is returned for exactly as many random values with one opening as with the other.", "quantifier": "all curves and hashes, parameters of matching sizes, pairs of openings, outputs", "why_tests_cant": "A statement on the distribution of outputs over all random values; no run shows that other witnesses explain it.", "anchors": ["sum/sa.go:NewArgument", "sum/sa.go:NewAggregatedArgument"]}
{"id": "C73", "title": "The range proof tells nothing about the values", "statement": "If a commitment opens to two vectors with entries below 2^63, then every proof that ProveRange can return with non-zero challenges x and z is returned for exactly as many random values with one opening as with the other (prime-order group, F and H not neutral).", "quantifier": "all lawful curves and hashes, parameters of matching sizes, pairs of openings, outputs", "why_tests_cant": "A statement on the distribution of outputs over all random values; no run shows that other witnesses explain it.", "anchors": ["bp/range.go:ProveRange"]}
{"id": "C74", "title": "Equality proofs tell nothing about the vectors", "statement": "If the commitments of an Equality (or of a batch of Equalities) open to two lists of vectors whose entries at the given places agree pairwise, then every proof that Prove can return with a non-zero first challenge is returned for exactly as many random values with one list of openings as with the other. In particular the equal entries themselves stay hidden.", "quantifier": "all curves and hashes, parameters made from any non-zero trapdoor, indices, pairs of openings, outputs", "why_tests_cant": "A statement on the distribution of outputs over all random values; no run shows that other witnesses explain it.", "anchors": ["poe/poe.go:Equality.Prove", "poe/poe.go:Equalities.Prove"]}
{"id": "C75", "title": "Root, total and liability proofs tell nothing about other clients' amounts", "statement": "For two histories of Set calls with the same identifiers in the same order, and any list of requests to ProveLiability by identifiers whose latest amounts agree: every view (result of Root, of ProveTot if the totals agree, and all the returned liability proofs) is obtained for exactly as many choices of the random values with one history as with the other. Views with a zero challenge among those that multiply masks, and identifiers that share the vertex over their leaf or are written twice (for which proofs are not accepted, C47), are excluded.", "quantifier": "all lawful curves and hashes, fan-outs, path lengths, histories, sets of requests, views", "why_tests_cant": "A statement on the joint distribution of everything published, over all random values of the tree and of the provers.", "anchors": ["pol/pol.go:LiabilitySet.Set", "pol/pol.go:LiabilitySet.Root", "pol/pol.go:LiabilitySet.ProveTot", "pol/pol.go:LiabilitySet.ProveLiability", "verkle/tree.go:updateInnerVertex"]}
{"id": "C76", "title": "Proofs from before and after a write reveal the change", "statement": "Set keeps the blinding factors of the vertices it updates. So if a client gets a liability proof, further amounts are set, and the client gets another proof, then in each layer above that over the leaves the second commitment is the first plus the commitment to the changes of the amounts with blinding factor zero. For a single write the commitments of the top layer before and after determine the change of the other client's amount: two runs with the same commitments have the same change. The privacy of C75 therefore does not extend to views that span a write.", "quantifier": "all lawful curves, histories, further writes, clients, layers, random values", "why_tests_cant": "It holds for all random values; a test would need to know what to subtract.", "anchors": ["verkle/tree.go:updateInnerVertex", "pol/pol.go:LiabilitySet.ProveLiability"]}
{"id": "C77", "title": "The stream written by Serialize can be read back", "statement": "Whatever the order in which the maps of descendants are visited and whatever function encodes the data, a reader that takes the first four bytes of each 32-byte header as a big-endian length and decodes as many bytes as a DER sequence of a string and a byte string finds in the output of (*sparse.Vertex).Serialize one record for each prefix of a path written to by Put, and no others: the dotted name of the prefix and the encoding of its data. For the Verkle tree, whose callback encodes nothing (C42), the output lists all vertices touched by the history with empty contents.", "quantifier": "all trees, histories of Put, orders of the maps, encodings of the data; lengths below 2^30", "why_tests_cant": "Map order is random in Go; all histories and all encodings.", "anchors": ["sparse/tree.go:Vertex.Serialize", "verkle/tree.go:Tree.Serialize"]}
{"id": "C78", "title": "The linked vertices of the sparse tree form a tree", "statement": "After any sequence of calls of (*sparse.Tree).Put on an empty tree, no vertex is reached from the root by two paths and each vertex's Parent is the vertex above it. So the loop of Put that follows Parent upwards visits exactly the vertices of the path, ends at the root and never indexes path at -1: Put on the linked vertices, changed in place, panics for the same inputs, calls the callback with the same arguments and has the same effects as a recursive function on an immutable tree, and Get gives the same answers. In particular Get returns what was last put (C34).", "quantifier": "all trees, callbacks (also with side effects and panics), histories, identifiers", "why_tests_cant": "All histories and callbacks; sharing and wrong parents show only in later updates.", "anchors": ["sparse/tree.go:Tree.Put", "sparse/tree.go:Tree.Get", "sparse/tree.go:Vertex.rawData"]}
{"id": "C79", "title": "The table of path lengths holds the most frequent length", "statement": "For each fan-out that sparse.HexId2PathForFanOut accepts, the path length in ExpectedHexPathLengthByFanOut is the number of base-fan-out digits that most of the 256-bit numbers have: no other length is met by more of them, and at least 43 percent of them have it. An identifier of 64 hexadecimal digits is used without hashing it again exactly when its value has that many digits.", "quantifier": "all fan-outs of the table, all lengths, all 256-bit identifiers", "why_tests_cant": "The claim counts 2^256 numbers; a wrong entry of the table only makes the loop hash more often, or never end, and every path it returns still looks right.", "anchors": ["sparse/tree.go:176-192", "sparse/tree.go:HexId2PathForFanOut"]}
{"id": "C80", "title": "Which fan-outs a new Verkle tree supports", "statement": "On a tree made by verkle.NewVerkleTree with a fan-out of at most 65533, no sequence of calls of Put with valid identifiers (paths of one length, every component below the fan-out) panics. With fan-out 65534 or 65535 the sum fanOut+2, computed as a uint16, wraps around to 0 or 1, and the first Put panics whatever its identifier and amount.", "quantifier": "all 65536 fan-outs, all histories, identifiers, amounts, blinding factors and map orders", "why_tests_cant": "The tests use one or two small fan-outs; the histories are unbounded.", "anchors": ["verkle/tree.go:NewVerkleTree", "verkle/tree.go:updateLayerAboveLeaves", "pp/pointproofs.go:Commit"]}
{"id": "C81", "title": "An accepted sum argument is about a commitment to a balanced vector", "statement": "Whoever makes sum.Verify accept a proof for a group element V can open V as a commitment r*F + <v,Gs> to a vector v whose last entry is the sum of the others, or knows a linear relation between the generators. (False of the code: NewArgument called with V = r*F + <v,Gs> + x0*imbalance(v)*U, x0 being a hash of the parameters only, gives an accepted proof for any v. What three accepted answers imply is an opening over F, Gs, H and U whose U-coefficient is x0 times the inner product of the two vectors.)", "quantifier": "all groups, generators, vectors, blinding factors, group elements V, trees of accepted transcripts", "why_tests_cant": "Tests call NewArgument with commitments made from the vector; the forged V is one group element among about 2^254, found only from the algebra of the argument.", "anchors": ["sum/sa.go:NewArgument", "sum/sa.go:Verify", "bp/innerprod.go:107"]}
{"id": "C82", "title": "An accepted inner-product proof states the inner product of the committed vectors", "statement": "If InnerProductProof.Verify accepts a proof whose P is the commitment <a,G>+<b,H>, then C = <a,b>, or a linear relation between the generators is known; so a sum argument is accepted for a commitment r*F + <v,Gs> only if v is balanced. (False of the code: the challenge of a round depends on that round's L and R and on the parameters only, not on P, C or the other rounds. A prover that adds e*U to the first L is accepted for the true commitment and C = <a,b> - e*x1^2; in the sum argument it can then choose an unbalanced vector to which the finished rounds apply. What holds: P and the list of L and R determine C.)", "quantifier": "all curves, generators, vectors of length 2^k, errors, blinding factors", "why_tests_cant": "Tests verify proofs made by Prove, and changed proofs, which are rejected; the forgery is a different prover, valid for all inputs.", "anchors": ["bp/innerprod.go:computeNextParams", "bp/innerprod.go:computeInstanceSpecificParams", "bp/innerprod.go:Verify", "sum/sa.go:Verify"]}
{"id": "C83", "title": "A prover accepted too often can be rewound", "statement": "Every prover of the interactive inner-product argument, whatever its computing power, that is accepted for more than 6k(q-1)^(k-1) of the (q-1)^k sequences of non-zero round challenges (q the group order, a fraction of 6k/(q-1)) can be rewound to transcripts that yield an opening of the commitment, and a non-trivial linear relation between the generators unless the claimed inner product is right. A prover of the sum argument that is accepted for more than a fraction 2/q + 6k/(q-1) of the challenges can be rewound to transcripts that yield a non-trivial relation unless the vector it knows is balanced. Honest provers are accepted for all challenges, which is more than that.", "quantifier": "all groups, generators, statements, numbers of rounds, and all (unbounded) provers", "why_tests_cant": "A test runs one prover on a few challenges; the claim is about the number of challenges for which any prover at all succeeds.", "anchors": ["bp/innerprod.go:Verify", "bp/innerprod.go:verify", "sum/sa.go:Verify"]}
{"id": "C84", "title": "A prover of the range proof accepted too often can be rewound", "statement": "Every prover of the interactive range proof for 2^k values, whatever its computing power, that is accepted for more than a fraction 5/q + (64*2^k + 9k + 36)/(q-1) of all challenges (q the group order; below 2^-230 for k <= 15) can be rewound to transcripts that yield an opening of the commitment, and a non-trivial linear relation between the generators unless all values of the opening are below 2^63. The same holds for the iterated reduction with the fraction 3k/(q-1): the final value is that of the committed vector's multilinear polynomial. The honest prover is accepted for all challenges.", "quantifier": "all groups, generators, commitments, numbers of values, and all (unbounded) provers", "why_tests_cant": "A test runs one prover on a few challenges; the claim counts the challenges for which any prover at all succeeds.", "anchors": ["bp/range.go:VerifyRange", "bp/ir.go:IterativeVerify"]}
{"id": "C85", "title": "Amounts add up to at most the total for every prover accepted too often", "statement": "Take any number of provers of liability proofs for different paths, whatever their computing power, whose commitments agree wherever their paths agree, and an accepted proof of the total for their common root. If each of their interactive arguments is accepted for more than its soundness error of the challenges, the provers can be rewound to transcripts that break an assumption (a non-trivial linear relation between independent generators, or an equation for the parameter left out), unless no amount is negative and the amounts add up to at most the total. The soundness errors are that of C84 for a range proof, (m+1)/q + 6k/(q-1) for the sum argument over m layers of 2^k entries, and 2/q + 6j/(q-1) for the equality proof of 2^j pairs (q the group order); all are below 2^-230 for the sizes the code admits. Honest provers are accepted for all challenges.", "quantifier": "all groups and pairings, parameters, paths, commitments, amounts, and all (unbounded) provers", "why_tests_cant": "A test runs one prover on a few challenges; the claim counts the challenges for which any prover at all succeeds.", "anchors": ["pol/pol.go:LiabilityProof.Verify", "sum/sa.go:Proof.VerifyAggregated", "poe/poe.go:Equalities.Verify"]}
{"id": "C86", "title": "The values behind an accepted range proof cannot be replaced after the reduction", "statement": "The challenges of the iterated reduction inside a range proof depend on the bits that the proof commits to, so that nobody can commit to values out of range, make the reduction for them, and only then choose the bits of other values that pass the remaining checks. (False of the code: a reduction challenge is a hash of the reduction's own messages. If the mask W has no component along the Gs, these are the same whatever Q is. Values B below 2^63 with sum f_i*B_i = sum f_i*v_i, where the f_i are the products of the reduction's challenges, can be chosen afterwards, and VerifyRange accepts the commitment to v. What holds: for values fixed in advance this equation holds for at most a fraction k/(q-1) of the challenges.)", "quantifier": "all groups, hashes and parameters, all committed values (in range or not), all blinding factors", "why_tests_cant": "A test runs the honest prover; the forged proof comes from a prover that makes its messages in another order.", "anchors": ["bp/range.go:VerifyRange", "bp/ir.go:IterativeVerify"]}
{"id": "C87", "title": "Challenges bind what is hashed into them", "statement": "Every challenge is the hash of bytes in which nothing that the challenge is meant to cover can be changed without changing the bytes: the range proof's x (parameters, V, W, Q), y0 and y1 (parameters, Q, R, x, which of the two), z (parameters, C1, C2, Q, R, y0, y1), the rounds of the iterated reduction (parameters, A, B, V) and of the inner-product argument (parameters, L, R), the sum argument (c, V, W) and its aggregation (all commitments), the equality argument (all points, all integers, parameters, position), the point-proof aggregation (parameters, all commitments, position) and vertex digests (V, W). The parameters enter by digests that bind all their generators, for a given number of them.", "quantifier": "all hash functions, all encodings of points with a fixed length, all inputs", "why_tests_cant": "A challenge that misses an input is the same for prover and verifier, so honest proofs still verify; all pairs of inputs.", "anchors": ["bp/range.go:rangeProofRO1", "bp/range.go:computeZ", "bp/ir.go:appendVToChallenge", "bp/innerprod.go:randomOracle", "sum/sa.go:randomOracleCVW", "poe/poe.go:RO", "pp/pointproofs.go:RO", "verkle/tree.go:Digest"]}
{"id": "C88", "title": "All nine-digit identifiers can be used together in a dense set", "statement": "In a dense liability set, Set of any nine-digit identifier with a non-negative amount returns, whatever other nine-digit identifiers have been set before, and afterwards Get gives for each the amount last set. (False of the code: the path of a number below fanout^(L-2) is shorter than the others and can be a beginning of their paths. After Set(\"000000000\") in a new set, Set of every other identifier panics for ever; more generally Set of a number with k digits to the base of the fan-out blocks all numbers with the same k last digits. The other way round, Set(\"000000000\") after others returns, makes Get panic for the multiples of the fan-out, and ProveTot states a total without them. What holds: numbers of at least fanout^(L-2) can be used together.)", "quantifier": "all supported fan-outs, all sequences of Set calls including recovered panics before and after, all amounts, all groups and hashes", "why_tests_cant": "The repository's tests use identifiers of full depth, or a single short one; the set stays blocked for every sequence of later calls, which no finite test shows.", "anchors": ["sparse/tree.go:DigitPath", "sparse/tree.go:Put", "verkle/tree.go:updateInnerLayer", "pol/pol.go:Set"]}
{"id": "C89", "title": "A Set that panics changes nothing", "statement": "If Set panics and the caller recovers, the liability set and its database are as before: Get gives the same for every identifier, and ProveTot states the same total. (False of the code: the vertices created and the amount stay in the tree, and the deferred Put writes the vertex as changed so far. After Set(\"000000000\", a) in a new dense set, Set(id, n) panics for every id that is not a multiple of the fan-out, but then Get(id) gives n and ProveTot states a+n. What holds: nothing changes if the amount is negative or the identifier has no path, and in any case Get gives the same as before for identifiers whose paths neither begin nor continue the path written.)", "quantifier": "all states of the set and of its database, all identifiers, amounts, path functions, groups and hashes", "why_tests_cant": "No test recovers from a panic of Set; the claim is about every state in which Set may panic.", "anchors": ["pol/pol.go:Set", "sparse/tree.go:Put", "verkle/tree.go:updateInnerLayer", "verkle/tree.go:updateLayerAboveLeaves"]}
{"id": "C90", "title": "The size of a liability proof depends on the fan-out and the depth only", "statement": "Let a point be encoded in n bytes, the fan-out be 2^k-1, paths have length L, and 2^c be the least of 2, 4, 8, ... that is at least L-1. After any sequence of Sets, the proof that ProveLiability returns for any identifier that was set consists of L(5k+20)+2k+2*2^c+2c+7 points and 9L+11 scalars, and its Size is n(L(5k+20)+2*2^c+2c+5)+32(9L+8). So neither the identifier, nor an amount, nor the number of liabilities can be read from the length of a proof, and all the sizes that a round of the benchmark records, and their average, are one number known beforehand.", "quantifier": "all fan-outs and depths, all sequences of Sets, all identifiers and amounts, all randomness, all groups and hashes", "why_tests_cant": "The benchmark measures the sizes for eight fan-outs and a thousand random identifiers; that they never vary, for any set, is a statement about all of them.", "anchors": ["pol/pol.go:ProveLiability", "pol/pol.go:Size", "bp/range.go:ProveRange", "bp/ir.go:IterativeReduce", "bp/innerprod.go:Prove", "poe/poe.go:Prove", "bench/main.go:benchmarkFanout"]}
{"id": "C91", "title": "The lines the benchmark prints are averages of what their labels say", "statement": "Whenever the benchmark program reaches its end it prints nine lines, and only then; from each line the fan-outs and numbers can be read back; the sizes are the averages of the sizes of the parameters and proofs it made; with a clock that never goes back, each line of times has for every fan-out the average, in milliseconds rounded down, of the time spent on the work its label names, and the parts are at most the whole (equality + sum <= total, for proving and for verifying). (False of the code for \"sum proof times:\": the clock is started before the point proofs are aggregated, so their time is counted as time of the sum argument, while \"verify sum times:\" does not count the verification of the point proofs.)", "quantifier": "all settings, identifiers, randomness, clocks, path lengths, parallel or not", "why_tests_cant": "Times differ from run to run, so no test compares them with anything; which work is timed by which pair of clock readings is a statement about all clocks.", "anchors": ["bench/main.go:main", "bench/main.go:benchmarkFanout", "bench/main.go:measurePPGen", "bench/main.go:proveSumTime", "pol/pol.go:ProveLiability", "pol/pol.go:Verify"]}
{"id": "C92", "title": "Calls change no point that their caller holds", "statement": "Points are pointers, shared between parameters, sets, proofs and package variables, and Add and Sub (for GT: Mul) change what they point to. Every exported function of common (vectors), pp, bp, sum, poe and pol, run on such a memory, panics exactly when the description of it by values does, returns pointers to the described points, and never writes to a cell that existed before the call, not even temporarily; the only exception is pp.Update, which writes to the commitment it is given and to nothing else. So in any sequence of calls, from the initialisation of the packages, what the caller sees is what the description by values says, and everything returned earlier keeps its value.", "quantifier": "all memories, all sharing of pointers between arguments, all sequences of calls, all curves, parameters, inputs and randomness", "why_tests_cant": "A missing Copy shows only if two pointers happen to be shared and the changed point is used again, often in a later call; a test checks a few sequences of calls, and a temporary write is seen only by a goroutine reading at that moment.", "anchors": ["common/math.go:Sum", "common/math.go:MulV", "pp/pointproofs.go:Update", "bp/innerprod.go:computeInstanceSpecificParams", "bp/range.go:VerifyRange", "sum/sa.go:NewAggregatedArgument", "poe/poe.go:Prove", "pol/pol.go:ProveLiability", "pol/pol.go:Verify"]}
{"id": "C93", "title": "Elements returned by vector operations may be modified by the caller", "statement": "The points in the vectors returned by Add, Neg, Mul, MulV, Mulv, Duplicate and the point returned by Sum are in cells of their own made by the call, so that the caller may modify them in place without effect on anything else. (False of the code for MulV: in place of a product with the scalar 0 it returns the package variable zeroG1; adding a point to that element changes every later MulV, so that a commitment to N zeros becomes N times that point.)", "quantifier": "all vectors, scalars and memories", "why_tests_cant": "The sharing shows only with a zero scalar and a caller that modifies the element; the library's own calls never do (C92), so no test of the library fails.", "anchors": ["common/math.go:MulV", "common/math.go:Add", "common/math.go:Neg", "common/math.go:Duplicate", "common/math.go:Sum", "pp/pointproofs.go:Commit"]}
{"id": "C94", "title": "The tests of the repository pass whatever they draw", "statement": "Every test function of the repository passes (it returns, and every assertion holds) for all random values it can draw, apart from challenges that are zero and identifiers that have no path. (False of TestPolSparse: if the paths of the two identifiers drawn differ in their last step only, the liability proof does not verify and the test fails. TestUpdate passes, and would pass as well if Update did nothing: it appends the new values to a copy of the old ones and updates every entry to the value it already has.)", "quantifier": "all secrets, scalars, vectors, positions, identifiers and blinding factors drawn by the tests", "why_tests_cant": "One run of a test is one draw; a flaky test passes almost always, and a test that checks nothing passes always.", "anchors": ["pp/pointproofs_test.go:TestPointProofCommitment", "pp/pointproofs_test.go:TestUpdate", "pp/pointproofs_test.go:TestAggregation", "bp/innerprod_test.go:TestInnerProdArgument", "bp/ir_test.go:TestIterativeReduce", "bp/range_test.go:TestRangeProof", "sum/sa_test.go:TestSumArgument", "poe/poe_test.go:TestProofOfEquality", "sparse/tree_test.go:TestSSNSummationTree", "verkle/tree_test.go:TestVerkleTree", "pol/pol_test.go:TestPolSparse", "pol/pol_test.go:TestPolDense", "pol/pol_test.go:TestProveTot"]}
{"id": "C95", "title": "Generators come from different hash inputs and can be any points", "statement": "RandGenVec hashes different strings for different contexts or indices. In the parameters made by GeneratePublicParams, and in those made from fixed strings while proving and verifying, every generator is hashed to the curve from the string of its own role and index. If SHA-256 has no collision among these strings, then any choice of points for all generators is the outcome for some function in place of hashing to the curve (with the same commitment key and path function), so that no linear relation among the generators, or between them and the commitment key, is built in.", "quantifier": "all fan-outs, both kinds of trees, all secrets, all choices of points, all coefficients", "why_tests_cant": "Two generators made from the same string, or a relation between them, make no honest proof fail; they only help a cheating prover.", "anchors": ["common/math.go:RandGenVec", "pol/pol.go:GeneratePublicParams", "bp/range.go:NewRangeProofPublicParams", "sum/sa.go:NewPublicParams", "poe/poe.go:NewPublicParams", "bp/range.go:VerifyRange"]}
{"id": "C96", "title": "Whether Verify answers depends on the lengths of a proof's lists, not on what is in them", "statement": "With parameters for fan-out 2^k-1 and paths of length L: LiabilityProof.Verify returns (nil or an error, no panic) on every proof that has at least L commitments V and L range proofs, with at least k rounds of reduction and k+6 of folding each, k rounds of folding in the sum argument, and, for 2^kappa the padded number of pairs of layers, 2^kappa entries in each vector and kappa rounds of folding in the equality proof; whatever the points, scalars, Ws, digests and root are. Accepted proofs and those of ProveLiability are that long, the latter exactly; and every accepted proof of exactly that length with any of these lists cut off at the end makes Verify panic. The verifiers of the inner-product and sum arguments panic exactly on too few rounds.", "quantifier": "all proofs of sufficient length, all contents, roots, paths, and all ways to cut an accepted proof", "why_tests_cant": "The tests verify honest proofs only; no test calls a verifier on a proof with altered contents or lengths.", "anchors": ["pol/pol.go:LiabilityProof.Verify", "bp/range.go:VerifyRange", "bp/ir.go:IterativeVerify", "bp/innerprod.go:InnerProductProof.Verify", "sum/sa.go:VerifyAggregated", "poe/poe.go:Equalities.Verify"]}
{"id": "C97", "title": "An accepted proof has no entries that are not needed", "statement": "If LiabilityProof.Verify accepts a proof, then every list in it has exactly as many entries as verification needs; in particular nobody can turn an accepted proof into another accepted proof by adding entries.", "quantifier": "all proofs, roots, identifiers and parameters", "why_tests_cant": "All accepted proofs and everything that could be added to them; the tests verify honest proofs only.", "anchors": ["pol/pol.go:LiabilityProof.Verify", "bp/innerprod.go:InnerProductProof.Verify", "bp/ir.go:IterativeVerify"]}
{"id": "C98", "title": "The root determines the amounts", "statement": "Two liability sets under the same public parameters for which Root returns the same commitments hold the same amount for every identifier, unless their stores exhibit a hash collision, a digest that is zero, or two openings of one commitment.", "quantifier": "all parameters, all pairs of sequences of Set calls, all blinding factors", "why_tests_cant": "All pairs of histories; the tests never compare two sets, and the pair that breaks the claim involves rewriting an amount.", "anchors": ["pol/pol.go:LiabilitySet.Root", "pol/pol.go:LiabilitySet.Set", "verkle/tree.go:Tree.updateLayerAboveLeaves"]}
{"id": "C99", "title": "A liability proof is good for one leaf only", "statement": "A liability proof that Verify accepts for one identifier is not accepted for an identifier with another path: if the paths end in different indices, never, unless the last commitment is zero or the trapdoor is one of at most F*F+1 special ones; if they differ above the leaves in a layer with a non-zero W, only if the challenges of the aggregated point proof satisfy one non-trivial linear relation, which at most one in order of the vectors of challenges does.", "quantifier": "all proofs, roots, pairs of identifiers, parameters and trapdoors", "why_tests_cant": "All pairs of identifiers and all proofs, not only honest ones; the tests verify each proof for its own identifier only.", "anchors": ["pol/pol.go:LiabilityProof.Verify", "pp/pointproofs.go:Verify", "pp/pointproofs.go:VerifyAggregation"]}
{"id": "C100", "title": "Writes that leave every amount as it was leave the set as it was", "statement": "After further Set calls that leave every client with the amount they had before, such as writing an amount a second time or changing it and changing it back, Root answers as before and the proofs that could be made before can still be made and are accepted.", "quantifier": "all parameters, all sequences of Set calls followed by all sequences that leave the amounts alone", "why_tests_cant": "All histories; no test is about what a repeated write does to proofs.", "anchors": ["pol/pol.go:LiabilitySet.Set", "pol/pol.go:LiabilitySet.Root", "verkle/tree.go:Tree.updateLayerAboveLeaves"]}
{"id": "C101", "title": "A total of 2^63 or more stops every proof", "statement": "After any sequence of Set calls ProveTot returns a proof if and only if the total of the latest amounts, reduced modulo the group order, is below 2^63. If it is not, ProveTot and, without ParallelismEnabled, ProveLiability of every identifier that was written panic, whatever randomness is drawn (with it see C133); a later Set that brings the total back below 2^63 makes ProveTot return the exact total again.", "quantifier": "all parameters, all sequences of Set calls, all identifiers, all randomness of the proper sizes", "why_tests_cant": "The tests' amounts are small; overflow concerns sums of amounts that are each acceptable, in all sequences of writes.", "anchors": ["pol/pol.go:LiabilitySet.ProveTot", "pol/pol.go:LiabilitySet.ProveLiability", "bp/range.go:ProveRange"]}
{"id": "C102", "title": "Unreduced scalars change nothing that is stored, proved or accepted", "statement": "Take any scalar arithmetic whose results have the right residues modulo the group order, where Plus may or may not reduce and Equals may compare integers or residues (ModAdd and ModSub reduce; a sum below the order is exact). Starting from an empty database, any sequence of Set calls leaves the same bytes in the database; afterwards Root and ProveTot return the same, and ProveLiability with the same random values returns the same amount and a proof with the same points and, up to multiples of the order, the same scalars. Its digests and the scalar c of its sum argument are reduced. On proofs with reduced c, Verify accepts only what it accepts for the residues, and exactly that if the digests are reduced too.", "quantifier": "all scalar libraries meeting the stated assumptions, all parameters, all sequences of Set calls with int64 amounts, all randomness, all identifiers, all proofs with reduced c", "why_tests_cant": "Tests run with the one library that is linked; the claim is about every place where an unreduced sum could reach a hash, an encoding or a comparison, in all histories.", "anchors": ["verkle/tree.go:Tree.Put", "verkle/tree.go:Vertex.Bytes", "verkle/tree.go:updateSum", "pol/pol.go:LiabilitySet.ProveLiability", "pol/pol.go:LiabilityProof.Verify", "common/math.go:Vec.InnerProd", "common/math.go:Bits"]}
{"id": "C103", "title": "NewCommitment accepts balanced vectors whatever the scalar arithmetic", "statement": "For vectors of reduced scalars, sum.NewCommitment returns r·F + Σ v_i·Gs_i if the last entry is the sum of the others modulo the group order, and panics otherwise, whether or not Plus reduces.", "quantifier": "all scalar libraries meeting the assumptions of C102, all vectors, all generators", "why_tests_cant": "The tests build the last entry with the same unreduced additions as the check, so they never see a reduced last entry with a sum above the order.", "anchors": ["sum/sa.go:NewCommitment"]}
{"id": "C104", "title": "Choosing requests after seeing answers does not help to learn others' amounts", "statement": "Take two histories of Set calls that write the same identifiers in the same order, and an observer who sees the root, the proof of the total (if the totals agree) and the answers to any number of ProveLiability calls, each chosen with knowledge of all that was seen before, for identifiers whose amounts agree. Every transcript whose mask challenges are non-zero comes from equally many random values for both histories. Whatever test the observer applies to the transcript, the chances that it comes out positive differ by at most the chance of a transcript with a zero mask challenge or an unanswered request, and that chance is the same for both histories. Without requests the chances are equal.", "quantifier": "all pairs of histories with equal identifiers and totals below 2^63, all strategies of asking, all tests, all numbers of requests", "why_tests_cant": "A statement on all strategies and all tests, and on distributions, not on runs.", "anchors": ["pol/pol.go:LiabilitySet.Root", "pol/pol.go:LiabilitySet.ProveTot", "pol/pol.go:LiabilitySet.ProveLiability", "verkle/tree.go:Tree.Put"]}
{"id": "C105", "title": "Amounts survive a restart", "statement": "A liability set opened by NewLiabilitySet on the database in which an earlier set was written, with the same parameters, returns the amounts written before, proves their total and the individual liabilities, and later Set calls add to them.", "quantifier": "all parameters, all histories before and after the restart, all identifiers", "why_tests_cant": "Every test starts with an empty database; what happens with an old one concerns all histories before and after.", "anchors": ["pol/pol.go:NewLiabilitySet", "verkle/tree.go:NewVerkleTree", "pol/pol.go:LiabilitySet.Set", "pol/pol.go:LiabilitySet.ProveTot", "verkle/tree.go:Tree.updateInnerLayer"]}
{"id": "C106", "title": "What the roots and proofs published over time reveal, and what they do not", "statement": "A liability set publishes its root, possibly the proof of the total, and answers to ProveLiability calls after each of several batches of Set calls. Take two such sequences that write the same identifiers, that agree on everything written to a lowest inner vertex that is written to again after the first batch, and whose totals after the first batch agree if totals are proved. Everything published over the whole time comes from equally many random values for both: amounts in lowest inner vertices that are not written to again stay hidden, although their ancestors are updated with the old blinding factors. For the others it is different: when an amount is written to a neighbour in the client's lowest inner vertex, even the same amount again, the client's last commitment moves by the sum of all amounts in that vertex, so a client who gets a proof before and after sees whether two runs have the same sum there.", "quantifier": "all pairs of sequences of batches as described, all numbers of batches and of requests, all views with non-zero masks; for the leak, all histories, neighbours and amounts", "why_tests_cant": "Indistinguishability speaks of the number of random values behind every view, for all histories; a test looks at single runs.", "anchors": ["pol/pol.go:LiabilitySet.Set", "pol/pol.go:LiabilitySet.Root", "pol/pol.go:LiabilitySet.ProveTot", "pol/pol.go:LiabilitySet.ProveLiability", "verkle/tree.go:Tree.Put"]}
{"id": "C107", "title": "ProveLiability returns a proof for every identifier that was written, checked or not", "statement": "After any sequence of Set calls whose amounts total less than 2^63, ProveLiability returns, for every identifier that was written to, the amount last written and a proof that carries this amount, whatever else was written and however often. It never compares the commitments in the tree with their contents: where the last commitment has strayed from its contents (C40, C47), the same call returns the right amount, no error, and a proof that Verify rejects under every root. With positive amounts for different identifiers, two of them in one lowest inner vertex, this is what each of the two gets, for all trapdoors but at most fan-out + 1.", "quantifier": "all new liability sets, histories, identifiers written, prover randomness of the right size with non-zero range-proof challenges; for the rejection all roots", "why_tests_cant": "The claim is about every history and every choice of random values, and the rejection about every root.", "anchors": ["pol/pol.go:LiabilitySet.ProveLiability", "bp/range.go:ProveRange", "sum/sa.go:NewAggregatedArgument", "poe/poe.go:Equalities.Prove", "verkle/tree.go:Tree.Put"]}
{"id": "C108", "title": "A proof made while a Set is running belongs to the root before or after it", "statement": "Nothing takes a lock. Whenever ProveLiability runs while a Set is writing to the database, it returns what it would have returned if the writes had stood still at one moment between its first and its last read. It should return a proof for the root before or for the root after the Set. It does if the identifier that is read is below another child of the root than the one written, however reads and writes are interleaved. Otherwise it need not: the vertices are written from the leaf to the root and read from the root to the leaf, so a reader can find an old vertex above a new one; it then returns the right amount and a proof, without an error, and Verify rejects the proof under every root, old, new or any other, if the hash of the topmost new vertex has changed.", "quantifier": "all new liability sets, histories, writes, identifiers read, schedules (numbers of database writes made before each read) and prover randomness; for the rejection all roots", "why_tests_cant": "The claim is about every interleaving of reads and writes; the tests run one goroutine per liability set.", "anchors": ["pol/pol.go:LiabilitySet.ProveLiability", "pol/pol.go:LiabilitySet.Set", "verkle/tree.go:Tree.Get", "sparse/tree.go:Tree.Put"]}
{"id": "C109", "title": "Set calls that run at once all take effect", "statement": "Identifiers that were set before are set again by several calls of Set that run at the same time, each for its own identifier. After all have returned, Get should give all the new amounts, every stored vertex should carry the sum of the amounts last set below it, and ProveTot should state the total. This holds for every interleaving in which no call of the tree's callback reads a vertex between the reads and the write of another call. It fails otherwise: two Sets whose paths part at the root, both of which read the stored root before either writes it, both return, and Get gives both new amounts, but the stored root has the sums of a history without the first one. ProveTot then states a total without the first amount, and the proof is accepted.", "quantifier": "all new liability sets, histories, sets of simultaneous writes of different written identifiers, amounts and interleavings; for the violation all histories, pairs of identifiers whose paths part at the root, amounts and interleavings before the root", "why_tests_cant": "The claim is about every interleaving; the tests run one goroutine per liability set, and a lost update leaves no error behind.", "anchors": ["pol/pol.go:LiabilitySet.Set", "sparse/tree.go:Tree.Put", "verkle/tree.go:Tree.updateInnerLayer", "verkle/tree.go:Tree.updateLayerAboveLeaves", "pol/pol.go:LiabilitySet.ProveTot"]}
{"id": "C110", "title": "Overlapping Set calls return, and setting all identifiers again repairs what they lost", "statement": "Identifiers that were set before are set again by several calls of Set at once, overlapping in any way; the same identifier may be set by several of them. (1) All calls return without a panic. Afterwards Get gives, for every identifier, the amount whose leaf was set last; every stored vertex has entries for exactly its children, its sum is the sum of its entries, and above the layer over the leaves its commitments are commitments to its entries and digests. So an update can get lost between a vertex and its parent, but no vertex is broken. (2) Whatever such calls have done, also if some have not returned: once they are over and every identifier is set again, one call after the other, these calls return, every stored vertex carries the sum of the amounts below it, with matching commitments and digests above the layer over the leaves, Get gives the amounts, and ProveTot gives an accepted proof of their total. (3) The steps of one call alone are exactly what Set does.", "quantifier": "all new liability sets, histories, lists of simultaneous writes of written identifiers, amounts, sequences of steps that keep each call's own order (for (2): all sequences of steps that can happen), and all lists of later writes that contain every identifier", "why_tests_cant": "The claims are about every interleaving of the database reads and writes of any number of calls; the tests use one goroutine per liability set.", "anchors": ["pol/pol.go:LiabilitySet.Set", "sparse/tree.go:Tree.Put", "verkle/tree.go:Tree.updateInnerLayer", "verkle/tree.go:Tree.updateLayerAboveLeaves", "pol/pol.go:LiabilitySet.ProveTot"]}
{"id": "C111", "title": "The order in which Go visits maps shows in the stored bytes and nowhere else", "statement": "Take one session: parameters, a new liability set, and any sequence of calls of Set, Get, Root, ProveTot, ProveLiability and of verifications of what they returned. Run it twice with the same random draws, where every range over a map may visit the entries in another order, over two databases that hold the same vertices. (1) Either both runs panic, or in both the caller sees the same amounts, totals and verdicts and holds equal roots, totals and liability proofs, the trees in memory are equal and the databases hold the same vertices. (2) The bytes of a vertex tell the orders in which its maps were visited, so Vertex.Bytes is not a function of the vertex: with two entries there are two encodings that read back as the same vertex.", "quantifier": "all curves, secrets, fan-outs, tree types, pairs of iteration orders (a new one at every call), pairs of databases with the same vertices, sequences of calls of any length", "why_tests_cant": "Go randomises map iteration, so a run samples one order for each map; the claim compares all pairs of orders over all sequences of calls.", "anchors": ["verkle/tree.go:Vertex.Bytes", "verkle/tree.go:Vertex.FromBytes", "verkle/tree.go:Tree.updateInnerLayer", "verkle/tree.go:Tree.updateLayerAboveLeaves", "pol/pol.go:LiabilitySet.Set", "pol/pol.go:LiabilitySet.ProveLiability"]}
{"id": "C112", "title": "A database that loses values can stop calls, but cannot change what they return", "statement": "Between any two calls the database may lose the values of any keys, so that reading them gives no bytes until they are written again. If a session of Set, Get, Root, ProveTot, ProveLiability and verifications over such a database does not panic, then the same session over a database that loses nothing does not panic either, the caller sees the same amounts, totals and verdicts and holds equal roots, totals and proofs, and the two databases differ in missing values only. In particular no vertex is rebuilt from what happens to be left. A lost root makes ProveTot panic. (The limit: a database that gives back an older value of the root makes ProveTot prove the older total.)", "quantifier": "all curves, secrets, fan-outs, tree types, sequences of calls of any length, losses of any keys at any points between the calls, starting databases, also where the second lacks values from the start", "why_tests_cant": "The tests use a map that loses nothing; the claim is about every set of losses at every point of every session.", "anchors": ["verkle/tree.go:Tree.fetchVertex", "verkle/tree.go:Tree.updateInnerLayer", "verkle/tree.go:Tree.updateLayerAboveLeaves", "verkle/tree.go:Tree.Get", "pol/pol.go:LiabilitySet.Root", "pol/pol.go:DBMemorizeRoot.Get", "bench/main.go:DB.Get"]}
{"id": "C113", "title": "Two liability sets over one database do not disturb each other", "statement": "Two liability sets made with the same public parameters over the same database each answer for what was set through them. (The code violates this: the keys of stored vertices are made of paths only, so both sets write the same keys, and ProveTot on one set proves the total of the other, with a proof that Root of the first set accepts. What holds: in any interleaving no Set panics, Get on each set gives the amount last set through it, and every total proof is accepted for the root given by the first call of Root.)", "quantifier": "all curves, secrets, fan-outs and depths, path functions of the two sets, interleavings of any length of Sets with valid identifiers and amounts not negative, initial databases, amounts with the second set's total below 2^63", "why_tests_cant": "No test opens two sets on one database; the claim is about all interleavings.", "anchors": ["pol/pol.go:NewLiabilitySet", "pol/pol.go:LiabilitySet.Set", "pol/pol.go:LiabilitySet.Get", "pol/pol.go:LiabilitySet.ProveTot", "pol/pol.go:LiabilitySet.Root", "sparse/tree.go:Tree.Put", "verkle/tree.go:Tree.updateInnerLayer", "verkle/tree.go:Tree.updateLayerAboveLeaves"]}
{"id": "C114", "title": "The calls of the database are those for the path, and no others", "statement": "The database is an interface given by the caller. After any history, Set calls it for the vertices of the written path alone: going up from the deepest vertex that is not a leaf, each vertex is read if it is there already, then the vertex below it is read unless that is the leaf, then the vertex is written; so each vertex of the path is written exactly once, the root last, and a Set in a tree of depth L makes from 2L-1 (first write) to 3L-1 (path written before) calls, however many identifiers there are. Get and ProveLiability read the L vertices of the path once each, from the root down, if the path was written, and otherwise nothing; they never write. ProveTot reads the root once. The first call of Root on a set that is not empty reads the root once, and no later call reads anything.", "quantifier": "all curves, secrets, fan-outs and depths, path functions, histories of Sets with valid identifiers and amounts not negative, initial databases, random values, calls", "why_tests_cant": "The tests use a map as database and never look at the calls; the claim is about every history and the exact sequence of calls.", "anchors": ["verkle/tree.go:Tree.Get", "verkle/tree.go:Tree.Put", "verkle/tree.go:Tree.updateInnerLayer", "verkle/tree.go:Tree.fetchVertex", "verkle/tree.go:Tree.updateLayerAboveLeaves", "pol/pol.go:LiabilitySet.Set", "pol/pol.go:LiabilitySet.Get", "pol/pol.go:LiabilitySet.Root", "pol/pol.go:LiabilitySet.ProveTot", "pol/pol.go:LiabilitySet.ProveLiability", "pol/pol.go:DBMemorizeRoot.Get"]}
{"id": "C115", "title": "A Set whose database calls fail can be repeated", "statement": "The database is an interface given by the caller and its calls may fail inside a Set (a Get gives no bytes or panics, a Put panics and writes nothing), any of them, differently for every Set; the caller recovers from the panics and goes on. A Set panics if the database fails to store a vertex of its path, or to give it the vertex or the next vertex below. A Set that panics leaves the stored root and the total proof as they were. Whatever calls failed before, a Set during which none fails returns. Get gives the amount of the last Set of the identifier, even of one that panicked, once any Set of it has returned. Once the last Set of every identifier has returned, every stored vertex carries the sums of the last amounts, with matching commitments and digests, Get gives these amounts, and ProveTot gives an accepted proof of their sum.", "quantifier": "all curves, secrets, fan-outs and depths, path functions, histories of Sets with valid identifiers, calls of the database that fail during each of them, initial databases, random values", "why_tests_cant": "The tests use a map as database, which never fails; the claim is about every choice of failing calls in every history.", "anchors": ["verkle/tree.go:Tree.updateInnerLayer", "verkle/tree.go:Tree.fetchVertex", "verkle/tree.go:Tree.updateLayerAboveLeaves", "verkle/tree.go:Tree.Put", "sparse/tree.go:Tree.Put", "pol/pol.go:LiabilitySet.Set", "pol/pol.go:LiabilitySet.Get", "pol/pol.go:LiabilitySet.ProveTot"]}
{"id": "C116", "title": "A second total for a root takes a point that is not published", "statement": "For every commitment V and every sum there is exactly one point with which TotalProof.Verify accepts, so accepted total proofs cannot be varied, and who knows the secret drawn by NewPublicParams can prove every total for every root. Given one accepted proof, proving another total is the same as computing α^(N+1)·g1. The parameters do not give this point away: a prover that computes the points of two total proofs for different sums (or of two openings of one entry) from the published powers by additions and multiplications with scalars, and from other points that do not depend on the secret, is accepted twice for at most 2N of the secrets, whatever the commitment.", "quantifier": "all curves, secrets, fan-outs and depths, commitments, sums, coefficients and other points of the prover", "why_tests_cant": "The tests verify honest proofs for one drawn secret; the claim is about every prover of the kind described and counts the secrets for which it succeeds.", "anchors": ["pp/pointproofs.go:NewPublicParams", "pp/pointproofs.go:PP.Verify", "pol/pol.go:TotalProof.Verify"]}
{"id": "C117", "title": "The database holds one value per vertex above the leaves, whose size tells the shape of the tree only", "statement": "After any history of Sets with valid identifiers the database holds a vertex under the key of every proper prefix of a path written, and every other key holds what it held before. Started with an empty database, a set of depth L with n identifiers under different paths has from L to 1+n(L-1) values, however often they were set. The number of bytes of a value is given by the number of children of its vertex and by whether these are leaves. So the keys in use and the sizes of the values depend on which identifiers were set, and not on the amounts, the order and number of the writes, the random values or the secret.", "quantifier": "all curves (with points of one size for the sizes), secrets, fan-outs and depths, path functions, histories, random values and orders of map iteration", "why_tests_cant": "The tests never look at the keys and sizes in the database; the claim is about every history and compares all pairs of histories.", "anchors": ["verkle/tree.go:Tree.Put", "verkle/tree.go:Vertex.Bytes", "sparse/tree.go:Tree.Put", "pol/pol.go:LiabilitySet.Set"]}
{"id": "C118", "title": "A proof with nil pointers is not accepted for that", "statement": "If Verify of a liability or of a total returns on a proof in which some pointers to points are nil, it returns what it returns with any points in their places; so nothing is accepted that is not accepted without nil. An accepted proof of a liability has no nil among the points that count: all commitments, openings, the points of the first range proofs (as many as the path is long) and of the rounds asked for by the parameters; only a point that Verify itself overwrites and entries beyond the rounds may be nil. With a nil opening, or for a nil root, Verify of a total panics.", "quantifier": "all curves, memories, parameters, proofs, identifiers, path functions, and all ways to put points in the places of nil", "why_tests_cant": "Tests do not send proofs with missing points, and cannot try all places and all points in their stead.", "anchors": ["pol/pol.go:LiabilityProof.Verify", "pol/pol.go:TotalProof.Verify", "bp/range.go:VerifyRange", "bp/innerprod.go:InnerProductProof.Verify", "sum/sa.go:Proof.VerifyAggregated", "poe/poe.go:Equalities.Verify", "pp/pointproofs.go:VerifyAggregation"]}
{"id": "C119", "title": "A stored value that is cut short is never read as another", "statement": "If the database keeps only the first bytes of any values, between any calls, then calls that return give what they give over a database that keeps everything. A cut is noticed: after any history of Sets, with the value of a vertex cut anywhere, Get and ProveLiability panic for every written identifier below the vertex, and ProveTot panics for the root. Bytes after a complete value are ignored. Two limits: Root remembers cut bytes before decoding them, so it panics from then on even if the database is repaired; and a value overwritten in place and to a part only can be read as a vertex with new amounts and old commitments.", "quantifier": "all curves, sessions, histories, vertices, map orders, cut positions", "why_tests_cant": "The tests use a map in memory that never loses bytes; they cannot cut every value at every position between every two calls.", "anchors": ["verkle/tree.go:FromBytes", "verkle/tree.go:Bytes", "verkle/tree.go:fetchVertex", "verkle/tree.go:Get", "pol/pol.go:DBMemorizeRoot.Get", "pol/pol.go:Root", "pol/pol.go:ProveTot"]}
{"id": "C120", "title": "The calls of the database and the sizes of its values do not depend on the amounts", "statement": "Two liability sets for which the same identifiers are set in the same order make the same sequence of Get and Put calls on the database with the same keys, whatever the amounts, the random values, the map orders and the parameters; Get, ProveLiability and ProveTot afterwards make the same calls too; and on empty databases, after any number of the Sets, every key holds a value of the same size. So a store that does not read the bytes learns nothing about the amounts.", "quantifier": "all curves, fan-outs, depths, trapdoors, randomness, map orders, histories with the same identifiers, keys", "why_tests_cant": "The tests do not watch the calls of the database, and cannot compare all pairs of amounts.", "anchors": ["pol/pol.go:Set", "pol/pol.go:Get", "pol/pol.go:ProveLiability", "pol/pol.go:ProveTot", "verkle/tree.go:updateInnerLayer", "verkle/tree.go:updateLayerAboveLeaves", "verkle/tree.go:fetchVertex", "verkle/tree.go:Bytes"]}
{"id": "C121", "title": "How many points the provers make depends on zeros among the entries, not on the bits of the amounts", "statement": "Commit makes exactly one point for each entry of the vector that is not zero and one for the result; Open the same without the opened entry; Update makes two, whatever the entries. ProveRange makes a number of points that depends only on the number of values, plus the entries that are not zero in the random vectors, in the powers of a challenge, and in the values masked by a random vector and folded: the bits of the values do not show in it. It is between two bounds that depend only on the number of values.", "quantifier": "all curves, parameters, memories, vectors, values, randomness for which the call returns", "why_tests_cant": "The tests measure the time of a few calls; a difference that depends on secret bits shows only over all values, and time is too noisy to exclude it.", "anchors": ["common/math.go:MulV", "common/math.go:Sum", "pp/pointproofs.go:Commit", "pp/pointproofs.go:Open", "pp/pointproofs.go:Update", "bp/range.go:ProveRange", "bp/ir.go:IterativeReduce", "bp/innerprod.go:Prove"]}
{"id": "C122", "title": "The parameters bound how much work a proof makes for its verifier", "statement": "Intended: whatever liability proof Verify is given, the number of points it makes is bounded by the parameters and the length of the path. This is false: Verify does not check the number of Vs, nor the lengths of Vaggr and Waggr, and multiplies all of their points, so for each number there is a proof that is accepted and costs more. What holds: whatever the proof, the work is at most 853 points for each entry of the path and of a vertex, plus one for each entry of those three lists (the other lists do not count however long they are); without surplus entries in them it is bounded by the parameters.", "quantifier": "all curves, parameters that belong together, memories, liability proofs with arbitrary contents, identifiers, for which Verify returns", "why_tests_cant": "The tests verify proofs that an honest prover made; an upper bound is about all proofs that anyone can send.", "anchors": ["pol/pol.go:LiabilityProof.Verify", "bp/range.go:VerifyRange", "bp/ir.go:IterativeVerify", "bp/innerprod.go:Verify", "sum/sa.go:VerifyAggregated", "poe/poe.go:Verify", "pp/pointproofs.go:VerifyAggregation", "pp/pointproofs.go:Verify"]}
{"id": "C123", "title": "The parameters bound the work of the calls of a liability set", "statement": "Whatever has been done with a liability set before, however many customers it has and whatever its database holds, a call that returns makes a number of points bounded by the fan-out F and the length L of the paths: Set at most 5(F+1)L, Get at most 2L, Root at most 2, ProveTot at most F+4, ProveLiability at most 1965(F+1)L. A sequence of Sets costs no more than its length times the bound for one.", "quantifier": "all curves, parameters that belong together, memories, trees, databases and remembered roots, identifiers with paths of length L, amounts, randomness of the right length, for which the call returns", "why_tests_cant": "Benchmarks time a few sizes on one machine; a bound independent of the history is about all states.", "anchors": ["pol/pol.go:Set", "pol/pol.go:Get", "pol/pol.go:Root", "pol/pol.go:ProveTot", "pol/pol.go:ProveLiability", "verkle/tree.go:updateInnerVertex", "bp/range.go:ProveRange", "poe/poe.go:Prove", "sum/sa.go:NewAggregatedArgument", "pp/pointproofs.go:Open", "pp/pointproofs.go:Commit"]}
{"id": "C124", "title": "A database that answers anything cannot make the calls lie", "statement": "Let every read of every call be answered with whatever bytes the database likes (other bytes than were written, values of other keys, different answers at different times). Then Set still leaves the tree in memory that an honest database would leave, and Get gives the amount set last or panics. Root, ProveTot and ProveLiability should likewise give the root and the total of the amounts set, or panic. They do not: they read only the database, so a database that answers with the vertices of other amounts makes ProveTot give an accepted proof of another total, while Get still gives the amounts that were set.", "quantifier": "all curves, parameters, histories of Sets, and databases: a different function from keys to bytes for every callback of Set and for every later call", "why_tests_cant": "The tests use a map or LevelDB that return what was written; the claim is about all answers.", "anchors": ["verkle/tree.go:updateInnerVertex", "verkle/tree.go:Get", "pol/pol.go:Set", "pol/pol.go:Get", "pol/pol.go:Root", "pol/pol.go:ProveTot", "pol/pol.go:ProveLiability", "sparse/tree.go:Put"]}
{"id": "C125", "title": "The work of the setup, and what is thrown away", "statement": "For a fan-out F below 65534, GeneratePublicParams makes exactly 135F + 149 + 2M points, where M is the padded path length (the length of the vectors of the equality parameters); for paths of length L this is at most 135F + 4L + 145. NewLiabilitySet makes exactly 3F + 9 further points and uses none of them: the set it returns is determined by the given parameters, the database and the path function, whatever the memory and the scalar drawn for these points.", "quantifier": "all curves, memories, scalars, fan-outs below 65534, tree types, databases and path functions for which the calls return", "why_tests_cant": "A test sees the returned parameters, not how many points were made on the way or that none is used.", "anchors": ["pol/pol.go:GeneratePublicParams", "pol/pol.go:NewLiabilitySet", "pp/pointproofs.go:NewPublicParams", "poe/poe.go:NewPublicParams", "sum/sa.go:NewPublicParams", "bp/range.go:NewRangeProofPublicParams", "verkle/tree.go:NewVerkleTree", "common/math.go:RandGenVec"]}
{"id": "C126", "title": "Whatever the database does, Get gives the amount of the latest attempt or panics", "statement": "Let a caller make any sequence of Sets, recovering from every panic, over a database that answers every read as it likes and panics on whichever writes it likes. Then Get, with any further answers, gives for an identifier the amount of the latest attempt to set it, whether that attempt panicked or not; false if there was no attempt; or it panics. Attempts with a negative amount, or with an identifier that has no path, are refused and do not count. A Set in which the database fails on a write panics.", "quantifier": "all curves, environments, sequences of attempts whose paths have one length (path components may even exceed the fan-out), databases with any answers and failures at every callback, identifiers that share their path with no other", "why_tests_cant": "No test makes the database fail or lie; the claim is about all of its behaviours at every moment.", "anchors": ["sparse/tree.go:Put", "sparse/tree.go:Get", "verkle/tree.go:updateInnerVertex", "verkle/tree.go:Get", "pol/pol.go:Set", "pol/pol.go:Get"]}
{"id": "C127", "title": "Exactly who knows the secret of the parameters can open a root to other amounts", "statement": "Let a liability set be written and its root published. For any other amounts for the same identifiers, written in the same order, there are blinding factors with which a set with these other amounts has the very same root, so that ProveTot proves the other total and ProveLiability the other amounts, and TotalProof.Verify and LiabilityProof.Verify accept both for the published root; the blinding factors are computed from those drawn and the secret that NewPublicParams draws. Conversely, two runs of Set calls with the same commitment V in the root, and different totals or sums below a child of the root, give the secret as a root of a non-zero polynomial of degree at most fan-out + 2 whose coefficients are amounts and blinding factors.", "quantifier": "all curves, non-zero secrets, fan-outs and depths, environments, pairs of non-empty histories with totals below 2^63", "why_tests_cant": "The tests publish a root for one set of amounts; the claim is about all pairs of amounts and about blinding factors that no honest run would choose.", "anchors": ["pp/pointproofs.go:NewPublicParams", "verkle/tree.go:updateInnerVertex", "verkle/tree.go:updateLayerAboveLeaves", "pol/pol.go:LiabilitySet.Root", "pol/pol.go:TotalProof.Verify", "pol/pol.go:LiabilityProof.Verify"]}
{"id": "C128", "title": "The public parameters do not contain the point they leave out", "statement": "NewPublicParams puts the generator in the place of the power α^(N+1)·g1, with which totals and amounts could be changed. For every secret α that it may draw, this point is not among the published points.", "quantifier": "all curves, secrets and N ≥ 1", "why_tests_cant": "A test draws one secret; the secrets that break the claim are a handful among 2^254.", "anchors": ["pp/pointproofs.go:NewPublicParams", "pol/pol.go:GeneratePublicParams", "pol/pol.go:TotalProof.Verify"]}
{"id": "C129", "title": "An accepted liability proof cannot be changed by others", "statement": "Whoever has an accepted LiabilityProof, but not the secret of the parameters, cannot make another accepted LiabilityProof for the same commitments, roots and identifier out of it by changing the opened values, their openings, or the digests.", "quantifier": "all lawful, non-degenerate curves, secrets, fan-outs, identifiers, roots and pairs of accepted proofs", "why_tests_cant": "The changes a test can try are few; the claim is about every change.", "anchors": ["pol/pol.go:LiabilityProof.Verify", "pp/pointproofs.go:VerifyAggregation", "poe/poe.go:Equalities.Verify"]}
{"id": "C130", "title": "A proof with nil scalars or nil parts is not accepted for that", "statement": "If LiabilityProof.Verify returns for a proof in which pointers to scalars or to parts (range proofs, inner-product proofs, sum argument, equality proof) are nil, it returns what it returns with any scalars and parts in their places. An accepted proof has no nil among what counts; an accepted proof from which anything that counts is taken out makes Verify panic; and the nils that do not count (last digest, surplus range proofs) change nothing.", "quantifier": "all curves, parameters, identifiers, roots, proofs and sets of nil pointers in them", "why_tests_cant": "A test leaves out a few fields; the claim is about every set of fields of every proof, accepted or not.", "anchors": ["pol/pol.go:LiabilityProof.Verify", "bp/range.go:VerifyRange", "bp/ir.go:IterativeVerify", "bp/innerprod.go:InnerProductProof.Verify", "sum/sa.go:Proof.VerifyAggregated", "poe/poe.go:Equalities.Verify"]}
{"id": "C131", "title": "A liability proof is good for one root only, and goes out of date with it", "statement": "A liability proof that Verify accepts against one root is refused with an error against every other. So once an amount is set to another one, no client's proof from before is accepted against the root that Root then returns, and those made afterwards are made for it.", "quantifier": "all curves, parameters, proofs, identifiers, roots and histories; all trapdoors except the roots of one binomial", "why_tests_cant": "Tests verify a proof against the root of its own set; the claim is about every earlier proof and every later history.", "anchors": ["pol/pol.go:LiabilityProof.Verify", "pol/pol.go:LiabilitySet.Root", "pol/pol.go:LiabilitySet.Set", "pol/pol.go:DBMemorizeRoot"]}
{"id": "C132", "title": "A proof of the total is good for one root and one total", "statement": "TotalProof.Verify always returns; of the root commitment V, the total and the point of an accepted proof of the total, any two determine the third. So after an amount is set to another one, the proof that ProveTot makes states the new total and is accepted against the root that Root then returns, and no proof from before is.", "quantifier": "all curves, parameters, totals, proofs, roots and histories; all trapdoors except the roots of one binomial", "why_tests_cant": "A test verifies one proof against one root; the claim is about every pair of accepted proofs and every later root.", "anchors": ["pol/pol.go:TotalProof.Verify", "pol/pol.go:LiabilitySet.ProveTot", "pol/pol.go:LiabilitySet.Root", "pp/pointproofs.go:Verify"]}
{"id": "C133", "title": "An incomplete liability proof is never handed out", "statement": "With ParallelismEnabled, in every order in which the goroutines of ProveLiability can make their steps, if the function returns a proof then no range proof in it is nil. (False of the code when the total is 2^63 or more: ProveRange panics on the root, and the deferred Done lets ProveLiability return a proof without that range proof before the panic ends the process.)", "quantifier": "all histories, identifiers, random values and schedules", "why_tests_cant": "Which goroutine is first is up to the scheduler, and a test process that is killed by the panic reports nothing about the proof that was returned.", "anchors": ["pol/pol.go:LiabilitySet.ProveLiability", "bp/range.go:ProveRange"]}
{"id": "C134", "title": "Any number of callers can verify a proof at once", "statement": "Let any number of calls of LiabilityProof.Verify run at once with the same public parameters and ParallelismEnabled, for the same proof or for different ones, for any identifiers and roots. Although VerifyRange overwrites two fields of the inner-product proofs, which calls for the same proof have in common, in every order of the steps of all goroutines each call that returns alone returns, with the same verdict, and no call panics.", "quantifier": "all numbers of calls, proofs, identifiers, roots and schedules", "why_tests_cant": "The calls write to the same memory; a test sees a few of the orders in which they can do so.", "anchors": ["pol/pol.go:LiabilityProof.Verify", "bp/range.go:VerifyRange", "bp/innerprod.go:InnerProductProof.Verify"]}
{"id": "C135", "title": "Proofs of totals add up, and can be moved to other roots", "statement": "Given roots and accepted TotalProofs for them under the same public parameters, with totals whose sum fits an int, the sum of the proofs' points is an accepted proof of the sum of the totals for the sum of the roots, and an accepted proof of any other 64-bit total for it gives away the point that the parameters leave out. In particular the proofs of ProveTot for any number of liability sets add up to a proof of the sum of all their amounts. In the same way anyone who sees a root and a proof of its total can make, from the published parameters alone, another root with an accepted proof of any other total, or with other entries and the same total: a total proof says something only about a root that the verifier trusts.", "quantifier": "all lists of roots and proofs, all numbers of sets, all write histories, all shifts", "why_tests_cant": "The tests verify a single total proof for the root it was made for; that sums of proofs hold for all inputs is an algebraic fact about the verifier's equation.", "anchors": ["pol/pol.go:TotalProof.Verify", "pol/pol.go:LiabilitySet.ProveTot", "pp/pointproofs.go:Verify"]}
{"id": "C136", "title": "A root and a total read while a Set is running fit together", "statement": "Let Root (for the first time) and ProveTot be called while a Set on another goroutine is between its database writes. Each returns what it would have returned before the Set or what it returns after it, never anything else: the new values from the moment of the last write on. The two should also fit together, so that the TotalProof is accepted for the root. They need not: if the last write comes between the two reads, in either order, both calls return and the proof is refused, because nothing takes a lock.", "quantifier": "all histories, identifiers and amounts, all numbers of writes made before each of the two reads", "why_tests_cant": "The tests never read while a write is running, and the failure needs the last write to fall between two reads.", "anchors": ["pol/pol.go:LiabilitySet.Root", "pol/pol.go:LiabilitySet.ProveTot", "pol/pol.go:LiabilitySet.Set", "sparse/tree.go:Put", "verkle/tree.go:Tree.Put"]}
