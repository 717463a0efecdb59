{
 "claims": [
  {
   "property": "C01",
   "status": "proved",
   "theorems": [
    "PoL.Props.C01_opening_verifies"
   ],
   "note": ""
  },
  {
   "property": "C02",
   "status": "proved",
   "theorems": [
    "PoL.Props.C02_verify_iff",
    "PoL.Props.C02_verify_panics_iff",
    "PoL.Props.C02_wrong_value_rejected"
   ],
   "note": ""
  },
  {
   "property": "C03",
   "status": "proved",
   "theorems": [
    "PoL.Props.C03_position_binding",
    "PoL.Props.C03_published_powers"
   ],
   "note": ""
  },
  {
   "property": "C04",
   "status": "proved",
   "theorems": [
    "PoL.Props.C04_commit_add",
    "PoL.Props.C04_commit_smul",
    "PoL.Props.C04_commit_binding"
   ],
   "note": ""
  },
  {
   "property": "C05",
   "status": "proved",
   "theorems": [
    "PoL.Props.C05_blinding_hides"
   ],
   "note": ""
  },
  {
   "property": "C06",
   "status": "proved",
   "theorems": [
    "PoL.Props.C06_update_sequence"
   ],
   "note": ""
  },
  {
   "property": "C07",
   "status": "proved",
   "theorems": [
    "PoL.Props.C07_aggregation_verifies"
   ],
   "note": ""
  },
  {
   "property": "C08",
   "status": "proved",
   "theorems": [
    "PoL.Props.C08_verifyAggregation_iff",
    "PoL.Props.C08_aggregate_binding"
   ],
   "note": ""
  },
  {
   "property": "C09",
   "status": "proved",
   "theorems": [
    "PoL.Props.C09_inner_product_complete"
   ],
   "note": ""
  },
  {
   "property": "C10",
   "status": "proved",
   "theorems": [
    "PoL.Props.C10_prove_returns_iff_power_of_two",
    "PoL.Props.C10_proof_length"
   ],
   "note": ""
  },
  {
   "property": "C11",
   "status": "partial",
   "theorems": [
    "PoL.Props.C11_violated",
    "PoL.Props.C11_violated_witness",
    "PoL.Props.C11_fixed_P_partial"
   ],
   "note": "False of the code: line 107 of bp/innerprod.go drops P from the first challenge. C11_violated proves the negation, C11_violated_witness a concrete instance, C11_fixed_P_partial the part that holds."
  },
  {
   "property": "C12",
   "status": "proved",
   "theorems": [
    "PoL.Props.C12_verify_iff_accepting_transcript",
    "PoL.Props.C12_inner_product_special_sound"
   ],
   "note": ""
  },
  {
   "property": "C13",
   "status": "proved",
   "theorems": [
    "PoL.Props.C13_iterated_reduction_complete"
   ],
   "note": ""
  },
  {
   "property": "C14",
   "status": "proved",
   "theorems": [
    "PoL.Props.C14_reduced_value_is_multilinear",
    "PoL.Props.C14_f_vector"
   ],
   "note": ""
  },
  {
   "property": "C15",
   "status": "proved",
   "theorems": [
    "PoL.Props.C15_verify_iff_accepting_transcript",
    "PoL.Props.C15_iterated_reduction_special_sound"
   ],
   "note": ""
  },
  {
   "property": "C16",
   "status": "proved",
   "theorems": [
    "PoL.Props.C16_range_proof_complete",
    "PoL.Props.C16_new_params_sizes"
   ],
   "note": ""
  },
  {
   "property": "C17",
   "status": "proved",
   "theorems": [
    "PoL.Props.C17_prover_refuses_out_of_range"
   ],
   "note": ""
  },
  {
   "property": "C18",
   "status": "proved",
   "theorems": [
    "PoL.Props.C18_range_equation_forces_bits",
    "PoL.Props.C18_honest_vectors_satisfy_equation",
    "PoL.Props.C18_range_proof_special_sound",
    "PoL.Props.C18_no_proof_for_value_out_of_range",
    "PoL.Props.C18_honest_tree",
    "PoL.Props.C18_verify_iff_accepting_transcript"
   ],
   "note": "Special soundness: from a tree of accepted transcripts with distinct challenges (random-oracle forking itself is not formalised) an extractor computes an opening of the commitment, and either all values are below 2^63 or a non-trivial linear relation among the generators is output. C18_verify_iff_accepting_transcript links VerifyRange to the transcripts; C18_honest_tree shows the hypotheses are met."
  },
  {
   "property": "C19",
   "status": "proved",
   "theorems": [
    "PoL.Props.C19_new_params_sized",
    "PoL.Props.C19_sum_argument_complete"
   ],
   "note": ""
  },
  {
   "property": "C20",
   "status": "proved",
   "theorems": [
    "PoL.Props.C20_aggregated_sum_argument_complete",
    "PoL.Props.C20_aggregated_accepted_iff"
   ],
   "note": ""
  },
  {
   "property": "C21",
   "status": "proved",
   "theorems": [
    "PoL.Props.C21_new_commitment_iff_balanced"
   ],
   "note": ""
  },
  {
   "property": "C22",
   "status": "proved",
   "theorems": [
    "PoL.Props.C22_honest_proof_accepted_iff_balanced"
   ],
   "note": ""
  },
  {
   "property": "C23",
   "status": "proved",
   "theorems": [
    "PoL.Props.C23_verify_iff_accepting_transcript",
    "PoL.Props.C23_sum_argument_special_sound"
   ],
   "note": ""
  },
  {
   "property": "C24",
   "status": "proved",
   "theorems": [
    "PoL.Props.C24_new_params",
    "PoL.Props.C24_ro_total",
    "PoL.Props.C24_batch_equality_complete"
   ],
   "note": ""
  },
  {
   "property": "C25",
   "status": "proved",
   "theorems": [
    "PoL.Props.C25_batch_accepted_iff",
    "PoL.Props.C25_single_unequal_pair_rejected"
   ],
   "note": ""
  },
  {
   "property": "C26",
   "status": "proved",
   "theorems": [
    "PoL.Props.C26_prove_refuses",
    "PoL.Props.C26_equality_complete"
   ],
   "note": ""
  },
  {
   "property": "C27",
   "status": "proved",
   "theorems": [
    "PoL.Props.C27_verify_iff",
    "PoL.Props.C27_equality_special_sound"
   ],
   "note": ""
  },
  {
   "property": "C28",
   "status": "proved",
   "theorems": [
    "PoL.Props.C28_supported_fanouts",
    "PoL.Props.C28_paths_well_formed",
    "PoL.Props.C28_returns",
    "PoL.Props.C28_negative_never_returns"
   ],
   "note": ""
  },
  {
   "property": "C29",
   "status": "partial",
   "theorems": [
    "PoL.Props.C29_native_ids_distinct_partial",
    "PoL.Props.C29_violated_by_rehashing",
    "PoL.Props.C29_violated"
   ],
   "note": "False of the code: an identifier whose value does not have the tabulated number of base-fanout digits is re-hashed and then shares the path of its own hash (C29_violated_by_rehashing, C29_violated). Proved for identifiers with the tabulated number of digits."
  },
  {
   "property": "C30",
   "status": "proved",
   "theorems": [
    "PoL.Props.C30_supported_fanouts",
    "PoL.Props.C30_dense_paths",
    "PoL.Props.C30_dense_paths_distinct",
    "PoL.Props.C30_only_decimal",
    "PoL.Props.C30_negative_numbers_alias_zero"
   ],
   "note": ""
  },
  {
   "property": "C31",
   "status": "partial",
   "theorems": [
    "PoL.Props.C31_full_depth_iff_partial",
    "PoL.Props.C31_violated"
   ],
   "note": "False of the code: at most one zero is appended, so numbers below fanout^(L-2) get a shorter path and 000000000 is a prefix of other identifiers' paths (C31_violated). Proved: exactly the numbers >= fanout^(L-2) have full depth."
  },
  {
   "property": "C32",
   "status": "proved",
   "theorems": [
    "PoL.Props.C32_digit_path_len",
    "PoL.Props.C32_digit_path_len_diverges"
   ],
   "note": ""
  },
  {
   "property": "C33",
   "status": "partial",
   "theorems": [
    "PoL.Props.C33_decides_powers_of_two_partial",
    "PoL.Props.C33_violated",
    "PoL.Props.C33_reached_by_fanout_65535"
   ],
   "note": "False of the code at 0, where the loop never returns (C33_violated; reachable with fan-out 65535). Proved for every other input."
  },
  {
   "property": "C34",
   "status": "proved",
   "theorems": [
    "PoL.Props.C34_get_after_puts",
    "PoL.Props.C34_get_after_puts_equal_length",
    "PoL.Props.C34_puts_return"
   ],
   "note": ""
  },
  {
   "property": "C35",
   "status": "proved",
   "theorems": [
    "PoL.Props.C35_update_protocol"
   ],
   "note": ""
  },
  {
   "property": "C36",
   "status": "proved",
   "theorems": [
    "PoL.Props.C36_inner_vertices_consistent"
   ],
   "note": ""
  },
  {
   "property": "C37",
   "status": "proved",
   "theorems": [
    "PoL.Props.C37_vertex_roundtrip",
    "PoL.Props.C37_bytes_determine_vertex"
   ],
   "note": ""
  },
  {
   "property": "C38",
   "status": "proved",
   "theorems": [
    "PoL.Props.C38_keys_injective",
    "PoL.Props.C38_root_key",
    "PoL.Props.C38_write_footprint"
   ],
   "note": ""
  },
  {
   "property": "C39",
   "status": "proved",
   "theorems": [
    "PoL.Props.C39_writes_return",
    "PoL.Props.C39_stored_sums",
    "PoL.Props.C39_root_sum"
   ],
   "note": ""
  },
  {
   "property": "C40",
   "status": "partial",
   "theorems": [
    "PoL.Props.C40_deviation",
    "PoL.Props.C40_right_iff",
    "PoL.Props.C40_violated_generally",
    "PoL.Props.C40_commitments_partial",
    "PoL.Props.C40_violated"
   ],
   "note": "False of the code: the second write below a vertex of the last inner layer writes the sum at index len(values) (verkle/tree.go:424) instead of fan-out. C40_violated proves it for every tree, identifier, and non-zero amount; C40_commitments_partial proves the property for all vertices above that layer and those in it with one write below them. C40_deviation and C40_right_iff say exactly when the commitment is right; C40_violated_generally: wrong for all but F+1 trapdoors as soon as two identifiers share the vertex."
  },
  {
   "property": "C41",
   "status": "proved",
   "theorems": [
    "PoL.Props.C41_blinding_factor_kept",
    "PoL.Props.C41_draws_not_shared"
   ],
   "note": ""
  },
  {
   "property": "C42",
   "status": "partial",
   "theorems": [
    "PoL.Props.C42_serialize_ignores_amounts",
    "PoL.Props.C42_violated",
    "PoL.Props.C42_panics_on_empty"
   ],
   "note": "False of the code: the callback of Serialize never sees a *Vertex, so every record's payload is nil and the output depends only on the identifiers (C42_serialize_ignores_amounts, C42_violated); on an empty tree it panics (C42_panics_on_empty)."
  },
  {
   "property": "C43",
   "status": "proved",
   "theorems": [
    "PoL.Props.C43_sets_return",
    "PoL.Props.C43_negative_panics",
    "PoL.Props.C43_get_latest"
   ],
   "note": ""
  },
  {
   "property": "C44",
   "status": "proved",
   "theorems": [
    "PoL.Props.C44_total_proof",
    "PoL.Props.C44_sparse_end_to_end"
   ],
   "note": ""
  },
  {
   "property": "C45",
   "status": "proved",
   "theorems": [
    "PoL.Props.C45_one_total"
   ],
   "note": ""
  },
  {
   "property": "C46",
   "status": "partial",
   "theorems": [
    "PoL.Props.C46_empty",
    "PoL.Props.C46_first_call_partial",
    "PoL.Props.C46_root_frozen",
    "PoL.Props.C46_violated"
   ],
   "note": "False of the code once Root has been called and a further Set follows: Root keeps answering with the cached root (C46_root_frozen, C46_violated). Proved: before the first write, and for the first call after any history (C46_first_call_partial)."
  },
  {
   "property": "C47",
   "status": "partial",
   "theorems": [
    "PoL.Props.C47_verifies_iff",
    "PoL.Props.C47_violated_generally",
    "PoL.Props.C47_liability_proof_verifies_partial",
    "PoL.Props.C47_violated"
   ],
   "note": "False of the code when the vertex over the leaf was written more than once: the stored commitment V of that vertex is wrong (see C40) and no proof made by ProveLiability verifies (C47_violated). Proved for identifiers whose vertex over the leaves was written exactly once (C47_liability_proof_verifies_partial). C47_verifies_iff says exactly when the proofs are accepted; C47_violated_generally: never accepted, for all but F+1 trapdoors, as soon as two identifiers share the vertex over their leaves."
  },
  {
   "property": "C48",
   "status": "partial",
   "theorems": [
    "PoL.Props.C48_unknown_id_partial",
    "PoL.Props.C48_violated"
   ],
   "note": "False of the code for identifiers whose path is a proper prefix of a written one (dense identifiers, see C31): ProveLiability and Get panic (C48_violated). Proved for identifiers with full-length paths (C48_unknown_id_partial)."
  },
  {
   "property": "C49",
   "status": "partial",
   "theorems": [
    "PoL.Props.C49_bound_to_last_commitment_partial",
    "PoL.Props.C49_violated"
   ],
   "note": "False of the code: Verify does not check len(lp.V) and never compares PointProofSum with the digests, so whoever knows the root's contents can prove any amount for any identifier (C49_violated, with an explicit adversary). Proved: accepted proofs with the same last commitment state the same amount or give a group element left out of the parameters (C49_bound_to_last_commitment_partial)."
  },
  {
   "property": "C50",
   "status": "partial",
   "theorems": [
    "PoL.Props.C50_digests_are_hashes_partial",
    "PoL.Props.C50_violated",
    "PoL.Props.C50_violated_witness"
   ],
   "note": "False of the code: the opened aggregate of digests is not compared with lp.Digests (C50_violated, C50_violated_witness). Proved: the digests are the hashes of the next layers (C50_digests_are_hashes_partial)."
  },
  {
   "property": "C51",
   "status": "proved",
   "theorems": [
    "PoL.Props.C51_accepted_iff"
   ],
   "note": ""
  },
  {
   "property": "C52",
   "status": "partial",
   "theorems": [
    "PoL.Props.C52_same_verdict_partial",
    "PoL.Props.C52_returned",
    "PoL.Props.C52_no_deadlock",
    "PoL.Props.C52_violated"
   ],
   "note": "Proved for all schedules when the sequential Verify returns and range proofs do not share inner-product proofs (C52_same_verdict_partial, C52_no_deadlock). False of the code otherwise: when a range proof makes VerifyRange panic, there is a schedule in which Verify returns nil before the panic ends the process (C52_violated)."
  },
  {
   "property": "C53",
   "status": "partial",
   "theorems": [
    "PoL.Props.C53_range_proofs_in_place",
    "PoL.Props.C53_same_proof",
    "PoL.Props.C53_all_runs_return_partial",
    "PoL.Props.C53_panic_leaves_nil"
   ],
   "note": "C53_range_proofs_in_place and C53_same_proof hold for all schedules and inputs; C53_all_runs_return_partial assumes the sequential call returns. If a ProveRange panics, a schedule lets ProveLiability return with a nil range proof at that index (C53_panic_leaves_nil)."
  },
  {
   "property": "C54",
   "status": "proved",
   "theorems": [
    "PoL.Props.C54_dense",
    "PoL.Props.C54_sparse",
    "PoL.Props.C54_unsupported",
    "PoL.Props.C54_new_set"
   ],
   "note": ""
  },
  {
   "property": "C55",
   "status": "proved",
   "theorems": [
    "PoL.Props.C55_other_lengths_panic",
    "PoL.Props.C55_reduced",
    "PoL.Props.C55_value",
    "PoL.Props.C55_same_challenge_iff",
    "PoL.Props.C55_zero_iff",
    "PoL.Props.C55_six_digests"
   ],
   "note": ""
  },
  {
   "property": "C56",
   "status": "proved",
   "theorems": [
    "PoL.Props.C56_bits",
    "PoL.Props.C56_entry",
    "PoL.Props.C56_big_endian",
    "PoL.Props.C56_vec_bits"
   ],
   "note": ""
  },
  {
   "property": "C57",
   "status": "proved",
   "theorems": [
    "PoL.Props.C57_add",
    "PoL.Props.C57_sub",
    "PoL.Props.C57_hadamard",
    "PoL.Props.C57_inner_prod",
    "PoL.Props.C57_exp",
    "PoL.Props.C57_product",
    "PoL.Props.C57_unary",
    "PoL.Props.C57_pow_bit_vec",
    "PoL.Props.C57_power_series",
    "PoL.Props.C57_evens_odds",
    "PoL.Props.C57_interleave",
    "PoL.Props.C57_group_add",
    "PoL.Props.C57_group_unary",
    "PoL.Props.C57_mulV",
    "PoL.Props.C57_mulv2",
    "PoL.Props.C57_group_sum",
    "PoL.Props.C57_duplicate",
    "PoL.Props.C57_pair_prod"
   ],
   "note": ""
  },
  {
   "property": "C58",
   "status": "proved",
   "theorems": [
    "PoL.Props.C58_range",
    "PoL.Props.C58_range_twice",
    "PoL.Props.C58_sum",
    "PoL.Props.C58_sum_twice",
    "PoL.Props.C58_equalities",
    "PoL.Props.C58_equalities_twice",
    "PoL.Props.C58_liability"
   ],
   "note": ""
  },
  {
   "property": "C59",
   "status": "partial",
   "theorems": [
    "PoL.Props.C59_fresh_parameters_partial",
    "PoL.Props.C59_stale_digest",
    "PoL.Props.C59_violated_by_any_two_runs",
    "PoL.Props.C59_violated"
   ],
   "note": "False of the code: GeneratePublicParams replaces the generators after the digest was cached, so the digest in use is that of other generators (C59_stale_digest, C59_violated_by_any_two_runs, C59_violated). C59_fresh_parameters_partial: it holds for parameters straight from NewRangeProofPublicParams."
  },
  {
   "property": "C60",
   "status": "partial",
   "theorems": [
    "PoL.Props.C60_pointproofs_partial",
    "PoL.Props.C60_violated",
    "PoL.Props.C60_equalities_partial",
    "PoL.Props.C60_equalities_violated"
   ],
   "note": "False of the code: the position is truncated to one byte in pp and to two bytes in poe (C60_violated, C60_equalities_violated). The _partial theorems prove the separation below these bounds."
  },
  {
   "property": "C61",
   "status": "partial",
   "theorems": [
    "PoL.Props.C61_crash_states",
    "PoL.Props.C61_other_edges_partial",
    "PoL.Props.C61_violated",
    "PoL.Props.C61_same_amount"
   ],
   "note": "False of the code: stopping between two writes leaves parent and child in disagreement whenever the amount changed (C61_violated). C61_other_edges_partial: all other edges are consistent at every crash point."
  },
  {
   "property": "C62",
   "status": "partial",
   "theorems": [
    "PoL.Props.C62_wrong_shape_is_an_error_partial",
    "PoL.Props.C62_violated"
   ],
   "note": "False of the code: a proof without V, or without range proofs, makes Verify panic (C62_violated). Proved: wrong numbers of W or digests and a wrong root give an error (C62_wrong_shape_is_an_error_partial). C96 says exactly which lengths of lists are enough for an answer."
  },
  {
   "property": "C63",
   "status": "partial",
   "theorems": [
    "PoL.Props.C63_honest_root_partial",
    "PoL.Props.C63_violated"
   ],
   "note": "False of the code for dishonest roots: any total, also negative, can be proved for a suitable commitment to a balanced vector (C63_violated). Proved for the roots of honest sets, up to the binding of the commitments (C63_honest_root_partial)."
  },
  {
   "property": "C64",
   "status": "partial",
   "theorems": [
    "PoL.Props.C64_size_partial",
    "PoL.Props.C64_violated"
   ],
   "note": "False of the code: Size leaves out the inner-product proof of the sum argument and the opening of the client's amount (C64_violated). Proved: exactly these are left out (C64_size_partial)."
  },
  {
   "property": "C65",
   "status": "partial",
   "theorems": [
    "PoL.Props.C65_size_partial",
    "PoL.Props.C65_violated",
    "PoL.Props.C65_closed_form",
    "PoL.Props.C65_innerprod_params_size"
   ],
   "note": "False of the code: Size leaves out the parameters of the vector commitments, which it subtracts once too often (C65_violated). Proved: exactly these are left out (C65_size_partial). C65_closed_form: the number reported, in closed form."
  },
  {
   "property": "C66",
   "status": "proved",
   "theorems": [
    "PoL.Props.C66_aggregated_sum_special_sound",
    "PoL.Props.C66_verify_aggregated",
    "PoL.Props.C66_honest_branches"
   ],
   "note": "Openings of the commitments are a hypothesis (the range proofs of the liability proof provide them, C18). C66_verify_aggregated links the transcripts to the code; C66_honest_branches shows the hypotheses can be met."
  },
  {
   "property": "C67",
   "status": "proved",
   "theorems": [
    "PoL.Props.C67_batch_equality_special_sound",
    "PoL.Props.C67_verify_iff_accepting_transcript",
    "PoL.Props.C67_honest_branches"
   ],
   "note": "C67_verify_iff_accepting_transcript links the transcripts to the code; C67_honest_branches shows the hypotheses can be met whenever the entries agree."
  },
  {
   "property": "C68",
   "status": "proved",
   "theorems": [
    "PoL.Props.C68_amounts_at_most_total",
    "PoL.Props.C68_verify_checks",
    "PoL.Props.C68_honest_tree"
   ],
   "note": "The code enforces neither that there is one commitment per layer nor that proofs for different ids agree on common ancestors (C49, C50), so both are hypotheses. C68_verify_checks links the transcripts to LiabilityProof.Verify; C68_honest_tree shows the hypotheses can be met."
  },
  {
   "property": "C69",
   "status": "partial",
   "theorems": [
    "PoL.Props.C69_sparse_ids",
    "PoL.Props.C69_dense_ids",
    "PoL.Props.C69_full_depth_partial",
    "PoL.Props.C69_violated"
   ],
   "note": "False for fan-out 3: C69_violated. C69_full_depth_partial covers the other fan-outs of the benchmark; C69_sparse_ids and C69_dense_ids hold without exception."
  },
  {
   "property": "C70",
   "status": "partial",
   "theorems": [
    "PoL.Props.C70_round_completes_partial",
    "PoL.Props.C70_violated",
    "PoL.Props.C70_main_reports_partial",
    "PoL.Props.C70_violated_main"
   ],
   "note": "False: C70_violated, C70_violated_main (ITERATIONS=0). C70_round_completes_partial and C70_main_reports_partial cover runs without accidents (Spec/Bench.lean, Fortunate)."
  },
  {
   "property": "C71",
   "status": "proved",
   "theorems": [
    "PoL.Props.C71_average",
    "PoL.Props.C71_no_measurements"
   ],
   "note": ""
  },
  {
   "property": "C72",
   "status": "proved",
   "theorems": [
    "PoL.Props.C72_sum_argument_hides_vector",
    "PoL.Props.C72_aggregated_sum_argument_hides_vectors"
   ],
   "note": "Perfect witness indistinguishability, stated by counting random values in a finite set; outputs whose challenge is zero are excluded."
  },
  {
   "property": "C73",
   "status": "proved",
   "theorems": [
    "PoL.Props.C73_range_proof_hides_values"
   ],
   "note": "Perfect witness indistinguishability, stated by counting random values in a finite set; outputs whose challenge x or z is zero are excluded."
  },
  {
   "property": "C74",
   "status": "proved",
   "theorems": [
    "PoL.Props.C74_batch_equality_hides_vectors",
    "PoL.Props.C74_equality_hides_vectors"
   ],
   "note": "Perfect witness indistinguishability of (*Equality).Prove and (*Equalities).Prove, stated by counting random values in a finite set; outputs whose challenge is zero are excluded."
  },
  {
   "property": "C75",
   "status": "proved",
   "theorems": [
    "PoL.Props.C75_view_hides_other_amounts",
    "PoL.Props.C75_root_hides_amounts"
   ],
   "note": "Joint perfect indistinguishability of the root, the total proof and any number of liability proofs, stated by counting random values in a finite set. Excluded: views with a zero mask challenge; requests by identifiers whose vertex over the leaf was written more than once (C47)."
  },
  {
   "property": "C76",
   "status": "proved",
   "theorems": [
    "PoL.Props.C76_proofs_reveal_changes",
    "PoL.Props.C76_change_determined"
   ],
   "note": "The privacy of C75 fails for views that span a write, because blinding factors are kept (C41): exact difference of the commitments, and the change is determined."
  },
  {
   "property": "C77",
   "status": "proved",
   "theorems": [
    "PoL.Props.C77_stream_lists_tree",
    "PoL.Props.C77_trees_are_maps",
    "PoL.Props.C77_verkle_stream"
   ],
   "note": "For any order of the maps and any encoding of the data; record lengths below 2^30. What the Verkle tree puts into the records is empty, see C42."
  },
  {
   "property": "C78",
   "status": "proved",
   "theorems": [
    "PoL.Props.C78_vertices_form_a_tree",
    "PoL.Props.C78_same_effects",
    "PoL.Props.C78_same_answers",
    "PoL.Props.C78_get_after_puts"
   ],
   "note": "Refinement between a model with pointers and in-place updates (Model/Linked.lean) and the inductive model used elsewhere."
  },
  {
   "property": "C79",
   "status": "proved",
   "theorems": [
    "PoL.Props.C79_most_frequent_length",
    "PoL.Props.C79_without_hashing"
   ],
   "note": "Counting the numbers of each length; the 13 entries are compared with their two neighbouring lengths, monotonicity covers the others."
  },
  {
   "property": "C80",
   "status": "proved",
   "theorems": [
    "PoL.Props.C80_new_tree_writes_return",
    "PoL.Props.C80_large_fanouts_panic"
   ],
   "note": "Corollary of the invariant of C39 for the constructor, and a proof that the first write fails for the two fan-outs that wrap."
  },
  {
   "property": "C81",
   "status": "partial",
   "theorems": [
    "PoL.Props.C81_violated",
    "PoL.Props.C81_extracted_partial",
    "PoL.Props.C81_all_accepted"
   ],
   "note": "Violated (C81_violated): the first challenge of the inner-product argument depends on the parameters only, so V may carry the term x0*imbalance(v)*U. C81_extracted_partial gives what three accepted answers do imply, C81_all_accepted that nothing more does. C23 covers commitments whose opening over F, Gs is known."
  },
  {
   "property": "C82",
   "status": "partial",
   "theorems": [
    "PoL.Props.C82_violated",
    "PoL.Props.C82_violated_everywhere",
    "PoL.Props.C82_sum_violated",
    "PoL.Props.C82_one_claim_partial"
   ],
   "note": "Violated (C82_violated, C82_violated_everywhere; C82_sum_violated for the sum argument): the challenge of a round is a hash of that round's L, R and of the parameters only, so the statement can be chosen after the rounds. C82_one_claim_partial: commitment and rounds determine the claim. Special soundness of the interactive argument is C12 and C23."
  },
  {
   "property": "C83",
   "status": "proved",
   "theorems": [
    "PoL.Props.C83_inner_product_soundness_error",
    "PoL.Props.C83_sum_soundness_error",
    "PoL.Props.C83_honest_prover",
    "PoL.Props.C83_honest_sum_prover"
   ],
   "note": "Soundness error of the interactive arguments with independent uniform challenges; how the code derives them is C81 and C82. C12_verify_iff_accepting_transcript and C23_verify_iff_accepting_transcript link accepted transcripts to the code. C83_honest_prover and C83_honest_sum_prover: the hypotheses can be met."
  },
  {
   "property": "C84",
   "status": "proved",
   "theorems": [
    "PoL.Props.C84_reduction_soundness_error",
    "PoL.Props.C84_range_soundness_error",
    "PoL.Props.C84_value_out_of_range_rejected",
    "PoL.Props.C84_honest_prover",
    "PoL.Props.C84_error_small"
   ],
   "note": "Soundness error of the interactive arguments with independent uniform challenges. C15_verify_iff_accepting_transcript and C18_verify_iff_accepting_transcript link accepted transcripts to the code. C84_honest_prover: the hypotheses can be met; C84_error_small: the bound is far below 1."
  },
  {
   "property": "C85",
   "status": "proved",
   "theorems": [
    "PoL.Props.C85_aggregated_sum_soundness_error",
    "PoL.Props.C85_batch_equality_soundness_error",
    "PoL.Props.C85_amounts_at_most_total",
    "PoL.Props.C85_honest_sum_prover",
    "PoL.Props.C85_honest_equality_prover",
    "PoL.Props.C85_errors_small",
    "PoL.Props.C85_honest_liability_prover"
   ],
   "note": "Soundness error of the interactive arguments with independent uniform challenges; the commitments of a path are fixed before the challenges. C18, C66, C67 and C68 (`_verify_iff_accepting_transcript`, `_verify_aggregated`, `_verify_checks`) link accepted transcripts to the code. The honest provers (C85_honest_*) meet the hypotheses; C85_errors_small: the bounds are far below 1."
  },
  {
   "property": "C86",
   "status": "partial",
   "theorems": [
    "PoL.Props.C86_bits_fixed_first_partial",
    "PoL.Props.C86_forgery_accepted_iff",
    "PoL.Props.C86_violated_generally",
    "PoL.Props.C86_violated",
    "PoL.Props.C86_other_values_exist"
   ],
   "note": "Violated (C86_violated: an accepted proof for a commitment to -1, on the toy curve with the parameters the library creates; C86_violated_generally: for all hashes, once values that agree at the challenges are known; C86_forgery_accepted_iff: exactly then). C86_other_values_exist: such values exist for at least one in k+1 pairs of challenges and first value, for 2^k >= 8 values. Finding them (a closest vector problem in dimension 2^k) is not modelled. C86_bits_fixed_first_partial: values fixed before the challenges agree for at most k/(q-1) of them; soundness of the interactive protocol is C18 and C84."
  },
  {
   "property": "C87",
   "status": "proved",
   "theorems": [
    "PoL.Props.C87_range_x",
    "PoL.Props.C87_range_y",
    "PoL.Props.C87_range_z",
    "PoL.Props.C87_reduction",
    "PoL.Props.C87_inner_product",
    "PoL.Props.C87_sum",
    "PoL.Props.C87_sum_aggregation",
    "PoL.Props.C87_equalities",
    "PoL.Props.C87_pointproofs",
    "PoL.Props.C87_vertex",
    "PoL.Props.C87_pointproof_parameters",
    "PoL.Props.C87_equality_parameters",
    "PoL.Props.C87_range_parameters",
    "PoL.Props.C87_inner_product_parameters",
    "PoL.Props.C87_shape_not_bound"
   ],
   "note": "Each theorem first fixes the bytes and then quantifies over the hash function, so the bytes cannot depend on it. Positions below 256 (point proofs) and 65536 (equalities), see C60; parameters of a given shape, see C87_shape_not_bound. What is not covered at all (the commitment P of the inner-product argument, the messages before the reduction) is the subject of C11, C81, C82 and C86."
  },
  {
   "property": "C88",
   "status": "partial",
   "theorems": [
    "PoL.Props.C88_shorter_path_blocks",
    "PoL.Props.C88_violated",
    "PoL.Props.C88_violated_by_zero",
    "PoL.Props.C88_violated_shorter_after",
    "PoL.Props.C88_full_depth_partial"
   ],
   "note": "Violated: C88_violated_by_zero (after Set of \"000000000\" every other identifier panics for ever), C88_violated (any short identifier), C88_shorter_path_blocks (any path function), C88_violated_shorter_after (the other order: Get panics and the total omits amounts). C88_full_depth_partial: identifiers of full depth can be used together."
  },
  {
   "property": "C89",
   "status": "partial",
   "theorems": [
    "PoL.Props.C89_completed_calls",
    "PoL.Props.C89_rejected_input_partial",
    "PoL.Props.C89_others_kept_partial",
    "PoL.Props.C89_violated",
    "PoL.Props.C89_violated_dense"
   ],
   "note": "Violated: C89_violated (any path function), C89_violated_dense (dense sets, \"000000000\" first); example on the toy curve. C89_rejected_input_partial: negative amounts and identifiers without a path change nothing. C89_others_kept_partial: in every state, whether Set panics or not, Get of identifiers with unrelated paths gives the same. C89_completed_calls: the model with recovered panics agrees with Set wherever Set returns."
  },
  {
   "property": "C90",
   "status": "proved",
   "theorems": [
    "PoL.Props.C90_proof_size",
    "PoL.Props.C90_equal_sizes",
    "PoL.Props.C90_benchmark"
   ],
   "note": "C90_proof_size gives the numbers of points and scalars and the Size; C90_equal_sizes compares any two proofs; C90_benchmark is about the sizes recorded by the benchmark and their average."
  },
  {
   "property": "C91",
   "status": "partial",
   "theorems": [
    "PoL.Props.C91_readable",
    "PoL.Props.C91_prints",
    "PoL.Props.C91_prints_only",
    "PoL.Props.C91_times_partial",
    "PoL.Props.C91_violated",
    "PoL.Props.C91_parts"
   ],
   "note": "C91_prints and C91_prints_only: the lines are printed exactly when the program reports, with the sizes it reports. C91_readable: lines can be read back. C91_times_partial: all lines of times but one are averages of the work named. C91_parts: parts are at most the whole. C91_violated: \"sum proof times:\" has the aggregation of point proofs in it."
  },
  {
   "property": "C92",
   "status": "proved",
   "theorems": [
    "PoL.Props.C92_vectors",
    "PoL.Props.C92_point_proofs",
    "PoL.Props.C92_update",
    "PoL.Props.C92_inner_product",
    "PoL.Props.C92_reduction",
    "PoL.Props.C92_range",
    "PoL.Props.C92_sum",
    "PoL.Props.C92_equality",
    "PoL.Props.C92_setup",
    "PoL.Props.C92_liability_set",
    "PoL.Props.C92_verifiers",
    "PoL.Props.C92_session"
   ],
   "note": "C92_session: any sequence of calls from the start of the program. C92_vectors, C92_point_proofs, C92_inner_product, C92_reduction, C92_range, C92_sum, C92_equality, C92_setup, C92_liability_set, C92_verifiers: the functions one by one, in any memory with any sharing. C92_update: Update writes to its argument only. Scalars stay values in this model."
  },
  {
   "property": "C93",
   "status": "partial",
   "theorems": [
    "PoL.Props.C93_own_cells_partial",
    "PoL.Props.C93_violated",
    "PoL.Props.C93_violated_commit"
   ],
   "note": "C93_own_cells_partial: new cells, no two the same, for all operations and for MulV without zero scalars. C93_violated: MulV returns the package variable for a zero scalar, and what follows if it is modified; C93_violated_commit: commitments to zeros are then wrong."
  },
  {
   "property": "C94",
   "status": "partial",
   "theorems": [
    "PoL.Props.C94_point_proof_commitment",
    "PoL.Props.C94_update_of_no_change",
    "PoL.Props.C94_update",
    "PoL.Props.C94_update_blind",
    "PoL.Props.C94_aggregation",
    "PoL.Props.C94_inner_prod_argument",
    "PoL.Props.C94_iterative_reduce",
    "PoL.Props.C94_range_proof",
    "PoL.Props.C94_equality",
    "PoL.Props.C94_equalities",
    "PoL.Props.C94_math",
    "PoL.Props.C94_sum_argument",
    "PoL.Props.C94_aggregated_sum_argument",
    "PoL.Props.C94_sparse_binary_summation_tree",
    "PoL.Props.C94_ssn_summation_tree",
    "PoL.Props.C94_sparse_power_two_summation_tree",
    "PoL.Props.C94_hex_path_is_in_correct_length",
    "PoL.Props.C94_is_power_of_two",
    "PoL.Props.C94_update_sum",
    "PoL.Props.C94_verkle_tree",
    "PoL.Props.C94_serialize_verkle_tree",
    "PoL.Props.C94_pol_sparse_partial",
    "PoL.Props.C94_pol_sparse_violated",
    "PoL.Props.C94_pol_dense",
    "PoL.Props.C94_prove_tot",
    "PoL.Props.C94_pol_sparse_violated_witness"
   ],
   "note": "One theorem per test function; all pass for all draws but TestPolSparse: C94_pol_sparse_partial needs paths that part before the last step, C94_pol_sparse_violated: it fails otherwise (C94_pol_sparse_violated_witness: a concrete draw). C94_update_blind: TestUpdate passes for an Update that does nothing."
  },
  {
   "property": "C95",
   "status": "proved",
   "theorems": [
    "PoL.Props.C95_labels_distinct",
    "PoL.Props.C95_generators",
    "PoL.Props.C95_any_generators",
    "PoL.Props.C95_no_relation_built_in"
   ],
   "note": "C95_labels_distinct: strings of RandGenVec; C95_generators: which string each generator comes from; C95_any_generators: any points can come out; C95_no_relation_built_in: no linear relation holds for all functions that hash to the curve. The base U of the inner-product arguments of the range proof and of the equality proof is the same point (role innerProductU)."
  },
  {
   "property": "C96",
   "status": "proved",
   "theorems": [
    "PoL.Props.C96_long_enough_is_answered",
    "PoL.Props.C96_accepted_is_long_enough",
    "PoL.Props.C96_parts",
    "PoL.Props.C96_honest_is_long_enough",
    "PoL.Props.C96_cut_panics"
   ],
   "note": "C96_long_enough_is_answered: a verdict for every proof that is long enough; C96_accepted_is_long_enough and C96_honest_is_long_enough: accepted and honest proofs are; C96_cut_panics: every proper cut of an accepted proof panics; C96_parts: the verifiers of the parts. Points are values (no nil pointers)."
  },
  {
   "property": "C97",
   "status": "partial",
   "theorems": [
    "PoL.Props.C97_verdict_unchanged",
    "PoL.Props.C97_verdict_of_trimmed_partial",
    "PoL.Props.C97_accepted_contains_trimmed",
    "PoL.Props.C97_violated"
   ],
   "note": "False: Verify checks the numbers of W commitments and of digests only. Whatever is added at the end of the lists of rounds (of the reduction and of the folding, in the range proofs, the sum argument and the equality proof) or of the list of range proofs, the verdict stays the same, so every accepted proof gives one accepted proof for every addition (C97_violated). Proved instead: the verdict depends only on the part that is left without the surplus, and every accepted proof contains an accepted one without it. Surplus commitments V are not ignored but worse (C49)."
  },
  {
   "property": "C98",
   "status": "partial",
   "theorems": [
    "PoL.Props.C98_root_determines_sums_partial",
    "PoL.Props.C98_hash_collision",
    "PoL.Props.C98_collision_reveals_trapdoor",
    "PoL.Props.C98_violated"
   ],
   "note": "False: because an update over the leaves puts the sum at the wrong index (C40), the commitment there is not a commitment to the amounts. C98_violated gives, for every curve, trapdoor, fan-out above 3 and positive amount, two histories of Set calls with the same Root and different results of Get. Proved instead: equal roots give the same vertices and the same sums below all vertices above the leaves, and the same amounts below vertices over the leaves written below at most once, or one of the three breaks, which are exhibited by stored vertices; a collision of commitments makes the trapdoor a root of an explicit polynomial."
  },
  {
   "property": "C99",
   "status": "proved",
   "theorems": [
    "PoL.Props.C99_same_path",
    "PoL.Props.C99_neighbour_iff",
    "PoL.Props.C99_wrong_last_index",
    "PoL.Props.C99_replay_needs_relation",
    "PoL.Props.C99_relation_rare",
    "PoL.Props.C99_special_trapdoors_few"
   ],
   "note": "For neighbours the condition is exact (C99_neighbour_iff). Identifiers with the same path have the same verdict (C99_same_path), so this is about leaves and not about identifiers (C29)."
  },
  {
   "property": "C100",
   "status": "partial",
   "theorems": [
    "PoL.Props.C100_contents_kept_partial",
    "PoL.Props.C100_unchanged_iff",
    "PoL.Props.C100_rewrite_iff",
    "PoL.Props.C100_root_kept_partial",
    "PoL.Props.C100_root_changes",
    "PoL.Props.C100_violated"
   ],
   "note": "False: each further write over the leaves puts the sum at an index that is not its own (C40). C100_violated: for every trapdoor other than zero, writing the amount of a client at index 0, alone below its vertex, a second time leaves Get as it was, but no proof made for that client is accepted any more, and Root answers differently (or a hash collision, a zero digest or two openings of a commitment can be read off the stores). Proved instead: values, sums, blinding factors and the V above the layer over the leaves are kept; exactly when all vertices are kept, in general and for a single repeated write; Root is kept when the deviations agree."
  },
  {
   "property": "C101",
   "status": "proved",
   "theorems": [
    "PoL.Props.C101_total_iff",
    "PoL.Props.C101_no_liability_proof",
    "PoL.Props.C101_nothing_proved",
    "PoL.Props.C101_total_again"
   ],
   "note": "RandSized says that each range and sum proof draws vectors of the lengths the code draws. One client with a large amount can so block the proofs of all clients: each proof contains a range proof of the root's vector, whose last entry is the total."
  },
  {
   "property": "C102",
   "status": "proved",
   "theorems": [
    "PoL.Props.C102_same_database",
    "PoL.Props.C102_stored_reduced",
    "PoL.Props.C102_same_root_and_total",
    "PoL.Props.C102_same_proof",
    "PoL.Props.C102_proof_of_residues",
    "PoL.Props.C102_honest_verdict",
    "PoL.Props.C102_same_verdict",
    "PoL.Props.C102_no_more_accepted",
    "PoL.Props.C102_arguments",
    "PoL.Props.C102_total_proof",
    "PoL.Props.C102_liability_proof"
   ],
   "note": "ScalarLib.Lawful states what is assumed of the library; Bytes and Int of unreduced integers and Equals of different integers with equal residues are left open. lazyLib (adds without reducing) and eagerLib (reduces everything) both meet it. C102_total_proof and C102_liability_proof carry C44 and C47 over; the others can be carried over in the same way."
  },
  {
   "property": "C103",
   "status": "partial",
   "theorems": [
    "PoL.Props.C103_violated",
    "PoL.Props.C103_adding_without_reducing",
    "PoL.Props.C103_adding_with_reducing",
    "PoL.Props.C103_accepted_is_balanced_partial",
    "PoL.Props.C103_small_sums_partial"
   ],
   "note": "False if Plus does not reduce (C103_violated): NewCommitment compares an unreduced sum with the last entry. What it accepts is always balanced, and it is right for sums below the order; C103_adding_without_reducing says exactly what it accepts then. Refines C21, which is about residues."
  },
  {
   "property": "C104",
   "status": "proved",
   "theorems": [
    "PoL.Props.C104_adaptive_requests_equally_likely",
    "PoL.Props.C104_advantage",
    "PoL.Props.C104_root_and_total_exactly"
   ],
   "note": "The random values are counted, that is, drawn uniformly; the hash functions are fixed. MayAsk leaves out identifiers that share their lowest inner vertex with other writes, for which the proofs are not accepted anyway (C47)."
  },
  {
   "property": "C105",
   "status": "partial",
   "theorems": [
    "PoL.Props.C105_violated",
    "PoL.Props.C105_first_writes_drop_the_rest",
    "PoL.Props.C105_written_again_partial"
   ],
   "note": "False of the code: the tree of vertices is kept in memory only. After a restart Get and ProveLiability find nothing and Root returns nil, while ProveTot still proves the old total from the database; the first Set replaces the stored root by one for that write only, and the total proved drops accordingly (C105_violated, C105_first_writes_drop_the_rest). Proved: if everything is written again, the old contents of the database do no harm (C105_written_again_partial)."
  },
  {
   "property": "C106",
   "status": "proved",
   "theorems": [
    "PoL.Props.C106_untouched_parts_stay_hidden",
    "PoL.Props.C106_totals_over_time",
    "PoL.Props.C106_neighbours_see_the_sum",
    "PoL.Props.C106_rewriting_reveals_sum"
   ],
   "note": "The random values are counted, that is, drawn uniformly; hash functions are fixed. The two leak theorems (neighbours_see_the_sum, rewriting_reveals_sum) show why the first theorem leaves out the vertices that are written to again."
  },
  {
   "property": "C107",
   "status": "proved",
   "theorems": [
    "PoL.Props.C107_proof_is_returned",
    "PoL.Props.C107_returned_and_rejected",
    "PoL.Props.C107_neighbours_get_rejected_proofs"
   ],
   "note": "Non-zero challenges of the range proofs are assumed, since ProveRange checks its own inner-product proof and a zero challenge has no inverse."
  },
  {
   "property": "C108",
   "status": "partial",
   "theorems": [
    "PoL.Props.C108_read_at_one_moment",
    "PoL.Props.C108_before_and_after",
    "PoL.Props.C108_other_child_partial",
    "PoL.Props.C108_violated"
   ],
   "note": "False of the code, see C108_violated. C108_other_child_partial is the case of different children of the root; C108_read_at_one_moment and C108_before_and_after hold for all schedules. Single reads and writes of the database are taken as atomic, and the walk through the vertices in memory as one step."
  },
  {
   "property": "C109",
   "status": "partial",
   "theorems": [
    "PoL.Props.C109_stored_partial",
    "PoL.Props.C109_get_and_total_partial",
    "PoL.Props.C109_violated"
   ],
   "note": "False of the code, see C109_violated. C109_stored_partial and C109_get_and_total_partial are about all interleavings in which the reads and the write of one callback are not interrupted. All paths were written before; single steps in memory and in the database are atomic; Go's data races are left out."
  },
  {
   "property": "C110",
   "status": "proved",
   "theorems": [
    "PoL.Props.C110_alone",
    "PoL.Props.C110_overlapping_sets_return",
    "PoL.Props.C110_setting_again_repairs"
   ],
   "note": "C110_overlapping_sets_return, C110_setting_again_repairs, C110_alone. All paths were written before; single steps in memory and in the database are atomic; Go's data races are left out. After a race the layer over the leaves has the commitments that repeated writes give (C40)."
  },
  {
   "property": "C111",
   "status": "proved",
   "theorems": [
    "PoL.Props.C111_map_order_is_invisible",
    "PoL.Props.C111_bytes_tell_the_order"
   ],
   "note": "C111_map_order_is_invisible, C111_bytes_tell_the_order. Map orders are arbitrary functions of the number of writes so far and of the map; the random draws are the same in both runs."
  },
  {
   "property": "C112",
   "status": "proved",
   "theorems": [
    "PoL.Props.C112_losses_change_no_answer",
    "PoL.Props.C112_no_loss",
    "PoL.Props.C112_lost_root_stops_total",
    "PoL.Props.C112_old_root_is_served"
   ],
   "note": "C112_losses_change_no_answer, C112_lost_root_stops_total, C112_no_loss; C112_old_root_is_served states the limit. Losses happen between calls, not inside one."
  },
  {
   "property": "C113",
   "status": "partial",
   "theorems": [
    "PoL.Props.C113_sets_return",
    "PoL.Props.C113_get_own_partial",
    "PoL.Props.C113_total_verifies_partial",
    "PoL.Props.C113_violated"
   ],
   "note": "C113_violated shows that the code does not have the property: the first set proves the total of the second. C113_sets_return, C113_get_own_partial and C113_total_verifies_partial are what holds for every interleaving."
  },
  {
   "property": "C114",
   "status": "proved",
   "theorems": [
    "PoL.Props.C114_same_results",
    "PoL.Props.C114_set_accesses",
    "PoL.Props.C114_write_accesses",
    "PoL.Props.C114_history_accesses",
    "PoL.Props.C114_get_accesses",
    "PoL.Props.C114_prove_accesses",
    "PoL.Props.C114_total_accesses",
    "PoL.Props.C114_root_accesses"
   ],
   "note": "The functions are written once more with a list of the calls (Model/Access.lean); C114_same_results says they return the same in every state. C114_set_accesses, C114_history_accesses, C114_get_accesses, C114_prove_accesses, C114_total_accesses and C114_root_accesses give the exact calls; C114_write_accesses says what the calls of a Set are."
  },
  {
   "property": "C115",
   "status": "proved",
   "theorems": [
    "PoL.Props.C115_answering_database",
    "PoL.Props.C115_failing_call_panics",
    "PoL.Props.C115_panic_keeps_total",
    "PoL.Props.C115_retry_returns",
    "PoL.Props.C115_get_last_try",
    "PoL.Props.C115_settled_exact"
   ],
   "note": "Set over a database whose calls can fail (Model/Faults.lean); C115_answering_database says that it is the Set of the other files if no call fails. C115_failing_call_panics, C115_panic_keeps_total, C115_retry_returns, C115_get_last_try and C115_settled_exact are the five parts. The layer above the leaves is refreshed with stale commitments for some vertices (C47), so matching commitments are claimed above it only."
  },
  {
   "property": "C116",
   "status": "proved",
   "theorems": [
    "PoL.Props.C116_one_point_per_total",
    "PoL.Props.C116_second_total_iff",
    "PoL.Props.C116_combining_prover",
    "PoL.Props.C116_combining_opener"
   ],
   "note": "C116_one_point_per_total, C116_second_total_iff, C116_combining_prover and C116_combining_opener. The coefficients of the prover may not depend on the secret: a prover that can compute the secret from the parameters exists, but not an efficient one, and the model has no notion of efficiency."
  },
  {
   "property": "C117",
   "status": "proved",
   "theorems": [
    "PoL.Props.C117_keys",
    "PoL.Props.C117_count",
    "PoL.Props.C117_value_size",
    "PoL.Props.C117_shape_only"
   ],
   "note": "C117_keys, C117_count, C117_value_size and C117_shape_only. Spec/Storage.lean counts the bytes of the DER encoding independently of the encoder of the model."
  },
  {
   "property": "C118",
   "status": "proved",
   "theorems": [
    "PoL.Props.C118_liability_verdict",
    "PoL.Props.C118_total_verdict",
    "PoL.Props.C118_liability_no_nil",
    "PoL.Props.C118_total_no_nil",
    "PoL.Props.C118_rounds"
   ],
   "note": "C118_liability_verdict, C118_total_verdict, C118_liability_no_nil, C118_total_no_nil, C118_rounds. In the model with pointers (Model/Ptr*.lean). Only pointers to points: nil scalars and nil structures are not modelled. The range proofs are verified one after the other (see C52 for goroutines)."
  },
  {
   "property": "C119",
   "status": "proved",
   "theorems": [
    "PoL.Props.C119_cuts_change_no_answer",
    "PoL.Props.C119_vertex_bytes",
    "PoL.Props.C119_cut_is_noticed",
    "PoL.Props.C119_cut_root_is_remembered",
    "PoL.Props.C119_mixed_value_is_read"
   ],
   "note": "C119_cuts_change_no_answer, C119_vertex_bytes, C119_cut_is_noticed; the limits are C119_cut_root_is_remembered and C119_mixed_value_is_read. Cuts happen between calls; a panic ends a session (recovering callers: C115). C119_cut_is_noticed starts from an empty database."
  },
  {
   "property": "C120",
   "status": "proved",
   "theorems": [
    "PoL.Props.C120_same_calls",
    "PoL.Props.C120_same_reads",
    "PoL.Props.C120_same_sizes"
   ],
   "note": "C120_same_calls, C120_same_reads, C120_same_sizes. From the exact calls (C114) and sizes (C117). The times between the calls are not modelled. C120_same_sizes supposes that all points have encodings of one length."
  },
  {
   "property": "C121",
   "status": "proved",
   "theorems": [
    "PoL.Props.C121_commit_counts",
    "PoL.Props.C121_open_counts",
    "PoL.Props.C121_update_counts",
    "PoL.Props.C121_range_counts",
    "PoL.Props.C121_range_bounds"
   ],
   "note": "C121_commit_counts, C121_open_counts, C121_update_counts, C121_range_counts, C121_range_bounds. Counts points made in the model with memory, one per multiplication; the time of one operation is not modelled. The challenges in C121_range_counts are those of the run but are only said to exist. Commit and Open reveal the number of non-zero entries to who can time them."
  },
  {
   "property": "C122",
   "status": "partial",
   "theorems": [
    "PoL.Props.C122_verify_is_linear",
    "PoL.Props.C122_accepted_pays",
    "PoL.Props.C122_verify_bounded_partial",
    "PoL.Props.C122_no_bound"
   ],
   "note": "C122_verify_is_linear (every proof), C122_verify_bounded_partial (no surplus in the lists), C122_accepted_pays (acceptance costs at least the lengths of Vaggr and Waggr); C122_no_bound is the negation of the full claim: accepted proofs that cost more than any number, for a toy curve whose hash function is constant. Counts points made; bytes hashed and time per operation are not counted."
  },
  {
   "property": "C123",
   "status": "proved",
   "theorems": [
    "PoL.Props.C123_set_is_bounded",
    "PoL.Props.C123_root_is_bounded",
    "PoL.Props.C123_get_is_bounded",
    "PoL.Props.C123_prove_is_bounded",
    "PoL.Props.C123_sets_are_linear"
   ],
   "note": "Counts points made (scalar multiplications, copies, decoded points); bytes hashed, database calls (C114) and time per operation are not counted."
  },
  {
   "property": "C124",
   "status": "partial",
   "theorems": [
    "PoL.Props.C124_tree_is_unaffected",
    "PoL.Props.C124_get_partial",
    "PoL.Props.C124_database_decides",
    "PoL.Props.C124_violated",
    "PoL.Props.C124_honest_database"
   ],
   "note": "C124_tree_is_unaffected and C124_get_partial hold for Set and Get; the claim is false for Root, ProveTot and ProveLiability (C124_violated, C124_database_decides). C124_honest_database: the honest database is one of those considered."
  },
  {
   "property": "C125",
   "status": "proved",
   "theorems": [
    "PoL.Props.C125_setup_counts",
    "PoL.Props.C125_new_set_counts",
    "PoL.Props.C125_setup_is_linear"
   ],
   "note": "Counts points made (scalar multiplications, copies, points hashed to the curve); bytes hashed are not counted."
  },
  {
   "property": "C126",
   "status": "proved",
   "theorems": [
    "PoL.Props.C126_failure_panics",
    "PoL.Props.C126_get_latest_attempt",
    "PoL.Props.C126_completed_calls"
   ],
   "note": "The amount may be that of an attempt that panicked (see C89). C126_completed_calls relates the calls that return to the model of C124."
  },
  {
   "property": "C127",
   "status": "proved",
   "theorems": [
    "PoL.Props.C127_secret_opens_root",
    "PoL.Props.C127_two_openings_give_secret"
   ],
   "note": "Nothing in the code erases or shares out the secret: whoever runs NewPublicParams is trusted with it. The liability proofs are those for identifiers that C47 allows."
  },
  {
   "property": "C128",
   "status": "partial",
   "theorems": [
    "PoL.Props.C128_missing_point_iff",
    "PoL.Props.C128_missing_point_partial",
    "PoL.Props.C128_weak_secret_any_total",
    "PoL.Props.C128_violated",
    "PoL.Props.C128_different_points_suffice"
   ],
   "note": "False for the secret 0 and for those with α^d = 1 for some d from 1 to N+1, and for no others (C128_missing_point_iff); NewPublicParams does not exclude them. These are at most 1 + (N+1)(N+2)/2 secrets (C128_missing_point_partial). With such a secret whoever has the parameters and one accepted total proof can prove every total. A client can tell from the parameters alone: if the published points are different from each other and from zero, the secret is not of this kind."
  },
  {
   "property": "C129",
   "status": "partial",
   "theorems": [
    "PoL.Props.C129_changed_values_partial",
    "PoL.Props.C129_violated"
   ],
   "note": "Two accepted proofs for the same commitments differ in each opening by the difference of the opened values times the point that the parameters leave out (C129_changed_values_partial), so the openings cannot be changed alone, and changing a value gives that point. False for the digests: Verify never reads the last one, which can be replaced by anything (C129_violated). See also C58 (fields of the proof that Verify overwrites), C82 (last scalars of the inner-product argument) and C97 (surplus entries)."
  },
  {
   "property": "C130",
   "status": "proved",
   "theorems": [
    "PoL.Props.C130_verdict",
    "PoL.Props.C130_no_nil",
    "PoL.Props.C130_unused",
    "PoL.Props.C130_taken_out_panics"
   ],
   "note": "For range proofs checked one after the other; nil points are C118."
  },
  {
   "property": "C131",
   "status": "partial",
   "theorems": [
    "PoL.Props.C131_one_root",
    "PoL.Props.C131_out_of_date_partial",
    "PoL.Props.C131_two_roots_partial",
    "PoL.Props.C131_violated",
    "PoL.Props.C131_violated_new_proofs"
   ],
   "note": "Holds for the root as stored. Root itself keeps returning the root of its first call (C46), so old proofs stay accepted against it (C131_violated) and all new ones are refused (C131_violated_new_proofs). For changes that leave the sums at the top as they were, C131_two_roots_partial (with what is missing in C98)."
  },
  {
   "property": "C132",
   "status": "partial",
   "theorems": [
    "PoL.Props.C132_returns",
    "PoL.Props.C132_determined",
    "PoL.Props.C132_out_of_date_partial",
    "PoL.Props.C132_violated"
   ],
   "note": "Holds for the root as stored. Root itself keeps returning the root of its first call (C46): after a further Set the new proof of the total is refused against it and the old one accepted: C132_violated."
  },
  {
   "property": "C133",
   "status": "partial",
   "theorems": [
    "PoL.Props.C133_never_complete",
    "PoL.Props.C133_violated",
    "PoL.Props.C133_complete_partial"
   ],
   "note": "False for totals of 2^63 and more: C133_violated (for every identifier with an amount below 2^63 and all random values some run returns with the range proof of the root nil); C133_never_complete: no run returns a complete proof then, and every run ends with the end of the process. C133_complete_partial: for smaller totals every run returns with all range proofs there."
  },
  {
   "property": "C134",
   "status": "proved",
   "theorems": [
    "PoL.Props.C134_same_verdicts",
    "PoL.Props.C134_one_proof"
   ],
   "note": "C134_same_verdicts: any number of calls, with range proofs in common or not; C134_one_proof: one proof verified many times at once, with a run in which all calls return. Calls that panic when alone are left out (C52_violated says what they may do); memory is sequentially consistent, as in C52."
  },
  {
   "property": "C135",
   "status": "proved",
   "theorems": [
    "PoL.Props.C135_sum",
    "PoL.Props.C135_no_other",
    "PoL.Props.C135_sets",
    "PoL.Props.C135_shifted",
    "PoL.Props.C135_same_total"
   ],
   "note": "C135_sum: accepted proofs add up; C135_no_other: no other total for the sum of the roots, or the missing point is known; C135_sets: for the proofs of ProveTot; C135_shifted, C135_same_total: other roots that anyone can make, and accepted proofs for them."
  },
  {
   "property": "C136",
   "status": "partial",
   "theorems": [
    "PoL.Props.C136_total",
    "PoL.Props.C136_root",
    "PoL.Props.C136_fit_partial",
    "PoL.Props.C136_violated"
   ],
   "note": "C136_total, C136_root: each call alone, proved in full for a set that was written to before; C136_fit_partial: the two fit if the last write does not come between them; C136_violated: otherwise the proof is refused, for every curve, history and change of an amount (but for trapdoors with alpha^(a+1) + alpha^(F+1) = 0). Single reads and writes of the database are atomic, as in C108."
  }
 ]
}