{
 "claims": [
  {
   "property": "C01",
   "status": "proved",
   "theorems": [
    "Verif.Sharing.shamir_any_quorum",
    "Verif.Sharing.shamir_any_quorum_group"
   ],
   "note": ""
  },
  {
   "property": "C02",
   "status": "proved",
   "theorems": [
    "Verif.Sharing.shamir_view_independent_of_secret"
   ],
   "note": ""
  },
  {
   "property": "C03",
   "status": "proved",
   "theorems": [
    "Verif.Sharing.combine_succeeds_iff",
    "Verif.Sharing.combine_first_error",
    "Verif.Sharing.combine_below_threshold",
    "Verif.Sharing.combine_never_panics"
   ],
   "note": ""
  },
  {
   "property": "C04",
   "status": "proved",
   "theorems": [
    "Verif.Sharing.scheme_new_iff",
    "Verif.Sharing.scheme_new_errors",
    "Verif.Sharing.split_iff",
    "Verif.Sharing.split_identifier_wraps"
   ],
   "note": "limit < 2^32; beyond that the u32 cast wraps (split_identifier_wraps)"
  },
  {
   "property": "C05",
   "status": "proved",
   "theorems": [
    "Verif.Sharing.feldman_share_verifies"
   ],
   "note": ""
  },
  {
   "property": "C06",
   "status": "partial",
   "theorems": [
    "Verif.Sharing.feldman_accepted_quorums_agree_partial",
    "Verif.Sharing.feldman_long_commitments_disagree"
   ],
   "note": "false of the code when more than threshold commitments are published: verify_share only checks a lower bound"
  },
  {
   "property": "C07",
   "status": "proved",
   "theorems": [
    "Verif.Sharing.pedersen_shares_verify",
    "Verif.Sharing.pedersen_accept_iff",
    "Verif.Sharing.pedersen_empty_commitments_panic"
   ],
   "note": "verify_share panics on an empty commitment vector"
  },
  {
   "property": "C08",
   "status": "proved",
   "theorems": [
    "Verif.Sharing.pedersen_perfectly_hiding"
   ],
   "note": ""
  },
  {
   "property": "C09",
   "status": "partial",
   "theorems": [
    "Verif.Sharing.share_parse",
    "Verif.Sharing.share_parse_short",
    "Verif.Sharing.share_to_bytes_diverges",
    "Verif.Sharing.feldman_verifier_round_trip_partial",
    "Verif.Sharing.feldman_verifier_round_trip_fails",
    "Verif.Sharing.pedersen_verifier_round_trip_partial",
    "Verif.Sharing.pedersen_verifier_round_trip_fails",
    "Verif.Sharing.pedersen_verifier_truncated_panics",
    "Verif.Sharing.feldman_verifier_parse_never_panics"
   ],
   "note": "false of the code: Share::to_bytes recurses forever, verifier parsers repeat the first commitment; exact behaviour proved"
  },
  {
   "property": "C10",
   "status": "proved",
   "theorems": [
    "Verif.BN.inverse_spec",
    "Verif.BN.inverse_bad_modulus",
    "Verif.BN.inverse_negative_wrong"
   ],
   "note": "for non-negative a; negative arguments give wrong answers (inverse_negative_wrong)"
  },
  {
   "property": "C11",
   "status": "proved",
   "theorems": [
    "Verif.BN.modulus_spec",
    "Verif.BN.modulus_zero",
    "Verif.BN.mod_mul_spec",
    "Verif.BN.mod_sub_spec",
    "Verif.BN.mod_exp_nonneg_spec",
    "Verif.BN.mod_exp_neg_spec",
    "Verif.BN.mod_div_spec"
   ],
   "note": "num-bigint modpow is trusted to return the floor-modulus power; inverse-based operations need non-negative bases"
  },
  {
   "property": "C12",
   "status": "proved",
   "theorems": [
    "Verif.BN.from_to_bytes",
    "Verif.BN.to_bytes_minimal",
    "Verif.BN.to_bytes_zero",
    "Verif.BN.to_bytes_neg",
    "Verif.BN.to_from_bytes",
    "Verif.BN.set_bit_reads_back",
    "Verif.BN.is_bit_set_iff",
    "Verif.BN.set_bit_value",
    "Verif.BN.rshift_spec",
    "Verif.BN.rshift1_lshift1"
   ],
   "note": ""
  },
  {
   "property": "C13",
   "status": "proved",
   "theorems": [
    "Verif.BN.bn_shamir_any_quorum",
    "Verif.BN.bn_shamir_round_trip",
    "Verif.BN.bn_shamir_small_field_leaks",
    "Verif.BN.bn_share_codec"
   ],
   "note": ""
  },
  {
   "property": "C14",
   "status": "proved",
   "theorems": [
    "Verif.BN.bn_split_outcome",
    "Verif.BN.bn_bad_field",
    "Verif.BN.bn_combine_ok_imp",
    "Verif.BN.bn_combine_never_panics",
    "Verif.BN.bn_combine_below_threshold_wrong",
    "Verif.BN.bn_share_parse_panics_iff"
   ],
   "note": "too few shares are not detected (bn_combine_below_threshold_wrong)"
  },
  {
   "property": "C15",
   "status": "proved",
   "theorems": [
    "Verif.CL.four_squares_spec"
   ],
   "note": "f64 square root of integers below 2^31 modelled as exact integer square root"
  },
  {
   "property": "C16",
   "status": "proved",
   "theorems": [
    "Verif.CL.predicate_delta",
    "Verif.CL.predicate_delta_wrapping",
    "Verif.CL.predicate_overflow"
   ],
   "note": "both overflow semantics modelled; predicate_overflow shows what happens outside the i32 range"
  },
  {
   "property": "C49",
   "status": "proved",
   "theorems": [
    "Verif.CL.bitwise_or_spec",
    "Verif.CL.v_prime_prime_range",
    "Verif.CL.transform_u32_spec",
    "Verif.CL.encode_attribute_collision_iff"
   ],
   "note": ""
  },
  {
   "property": "C25",
   "status": "proved",
   "theorems": [
    "Verif.CL.Rev.accumulator_matches_issued_set",
    "Verif.CL.Rev.registry_created"
   ],
   "note": ""
  },
  {
   "property": "C26",
   "status": "partial",
   "theorems": [
    "Verif.CL.Rev.revoke_not_issued_accepted",
    "Verif.CL.Rev.recover_issued_accepted",
    "Verif.CL.Rev.double_revoke_locks_out_holders"
   ],
   "note": "false of the code: the negation is proved (misuse is accepted, changes the accumulator and locks out honest holders)"
  },
  {
   "property": "C27",
   "status": "proved",
   "theorems": [
    "Verif.CL.Rev.witness_update_eq_recompute",
    "Verif.CL.Rev.witnessSum_perm"
   ],
   "note": ""
  },
  {
   "property": "C28",
   "status": "proved",
   "theorems": [
    "Verif.CL.Rev.nonrevocation_credential_accepted_iff"
   ],
   "note": ""
  },
  {
   "property": "C29",
   "status": "proved",
   "theorems": [
    "Verif.CL.Rev.merge_composes",
    "Verif.CL.Rev.merge_rejected_iff",
    "Verif.CL.Rev.merged_history",
    "Verif.CL.Rev.merge_invalid_not_composition"
   ],
   "note": ""
  },
  {
   "property": "C30",
   "status": "proved",
   "theorems": [
    "Verif.CL.Rev.tails_generator_spec",
    "Verif.CL.Rev.tails_try_next_spec",
    "Verif.CL.Rev.tails_access_spec",
    "Verif.CL.Rev.tails_generator_overflow"
   ],
   "note": ""
  },
  {
   "property": "C50",
   "status": "partial",
   "theorems": [
    "Verif.CL.Rev.revoked_holder_forges_witness",
    "Verif.CL.Rev.revoked_holder_witness_unique_partial"
   ],
   "note": "false of the code: the published tails contain g'^(gamma^(max+1)), from which a revoked holder computes a witness accepted by the check; proved as negation, plus uniqueness of that witness"
  },
  {
   "property": "C51",
   "status": "proved",
   "theorems": [
    "Verif.CL.Rev.nonrevoc_proof_complete",
    "Verif.CL.Rev.nonrevoc_proof_sound",
    "Verif.CL.Rev.nonrevoc_proof_end_to_end",
    "Verif.CL.Rev.revoked_holder_proves_nonrevocation",
    "Verif.CL.Rev.xlist_round_trip"
   ],
   "note": "soundness assumes no relation between h, htilde and between g, htilde (hypotheses of the theorem)"
  },
  {
   "property": "C17",
   "status": "proved",
   "theorems": [
    "Verif.CL.new_primary_keys_spec",
    "Verif.CL.new_primary_keys_empty",
    "Verif.CL.key_proof_complete",
    "Verif.CL.key_proof_sound",
    "Verif.CL.key_proof_accepted_iff"
   ],
   "note": "safe primes, quadratic residue and exponents are arguments; random_qr must be coprime to n"
  },
  {
   "property": "C18",
   "status": "proved",
   "theorems": [
    "Verif.CL.blinded_proof_complete",
    "Verif.CL.blinded_proof_sound"
   ],
   "note": ""
  },
  {
   "property": "C19",
   "status": "proved",
   "theorems": [
    "Verif.CL.issuance_end_to_end",
    "Verif.CL.primary_sign_then_check",
    "Verif.CL.sign_then_process"
   ],
   "note": "committed attributes are not part of the signature; e coprime to the private order"
  },
  {
   "property": "C31",
   "status": "partial",
   "theorems": [
    "Verif.CL.process_mutates",
    "Verif.CL.process_retry_fails"
   ],
   "note": "false of the code: the negation is proved (any failed call makes every later call with the right arguments fail)"
  },
  {
   "property": "C54",
   "status": "partial",
   "theorems": [
    "Verif.CL.hidden_overlap_changes_known_attribute"
   ],
   "note": "false of the code: the negation is proved"
  },
  {
   "property": "C55",
   "status": "partial",
   "theorems": [
    "Verif.CL.key_proof_sound",
    "Verif.CL.key_proof_accepted_iff",
    "Verif.CL.master_secret_generator_unproved"
   ],
   "note": "false of the code for the generator named master_secret: negation proved; for all others key_proof_sound"
  },
  {
   "property": "C56",
   "status": "partial",
   "theorems": [
    "Verif.CL.sign_panics_on_missing_response"
   ],
   "note": "false of the code: the negation is proved"
  },
  {
   "property": "C57",
   "status": "partial",
   "theorems": [
    "Verif.CL.context_none_eq_max",
    "Verif.CL.context_distinguishes_indices",
    "Verif.CL.context_distinguishes_provers"
   ],
   "note": "false of the code at index 2^32-1 (negation proved); all other indices are distinguished up to named collisions; provers are distinguished up to named collisions when their encodings have equal length"
  },
  {
   "property": "C58",
   "status": "partial",
   "theorems": [
    "Verif.CL.blinding_response_leaks"
   ],
   "note": "false of the code: the response determines v' up to 2^673/c"
  },
  {
   "property": "C59",
   "status": "proved",
   "theorems": [
    "Verif.CL.holder_check_sound",
    "Verif.CL.process_sound"
   ],
   "note": "primality test assumed to reject numbers below 2"
  },
  {
   "property": "C60",
   "status": "proved",
   "theorems": [
    "Verif.CL.sign_with_revoc_then_process",
    "Verif.CL.revocable_issuance_accepted_iff"
   ],
   "note": ""
  },
  {
   "property": "C20",
   "status": "proved",
   "theorems": [
    "Verif.CL.honest_presentation_accepted",
    "Verif.CL.honest_presentation_responses"
   ],
   "note": "credentials as characterised by `Honest`; presentable credentials are those produced by C19/C59 and C28/C51"
  },
  {
   "property": "C21",
   "status": "proved",
   "theorems": [
    "Verif.CL.verdict_only_for_matching_shape"
   ],
   "note": ""
  },
  {
   "property": "C22",
   "status": "partial",
   "theorems": [
    "Verif.CL.false_predicate_accepted",
    "Verif.CL.universal_forgery"
   ],
   "note": "false of the code: the verifier never compares the predicate response with the equality response; a holder of a valid credential proves any predicate (negation proved)"
  },
  {
   "property": "C23",
   "status": "partial",
   "theorems": [
    "Verif.CL.missing_nonrevocation_accepted"
   ],
   "note": "false of the code: the negation is proved"
  },
  {
   "property": "C24",
   "status": "partial",
   "theorems": [
    "Verif.CL.honest_second_presentation_rejected",
    "Verif.CL.reused_verifier_rejects"
   ],
   "note": "false of the code: the common-attribute map keeps the responses of the first proof; negation proved"
  },
  {
   "property": "C52",
   "status": "partial",
   "theorems": [
    "Verif.CL.universal_forgery"
   ],
   "note": "false of the code: c_list is taken from the proof and not tied to A', so anybody can forge; negation proved"
  },
  {
   "property": "C53",
   "status": "partial",
   "theorems": [
    "Verif.CL.borrowed_nonrevocation_accepted"
   ],
   "note": "false of the code: the verifier does not compare m2 responses; negation proved"
  },
  {
   "property": "C61",
   "status": "proved",
   "theorems": [
    "Verif.CL.replay_gives_collision"
   ],
   "note": "SHA-256 is an arbitrary function of fixed output length"
  },
  {
   "property": "C62",
   "status": "partial",
   "theorems": [
    "Verif.CL.committed_attribute_not_presentable"
   ],
   "note": "false of the code: the verifier's value differs from the prover's by a power of the committed generators; negation proved for a single credential without predicates"
  },
  {
   "property": "C63",
   "status": "proved",
   "theorems": [
    "Verif.CL.equality_proof_special_sound"
   ],
   "note": ""
  },
  {
   "property": "C64",
   "status": "partial",
   "theorems": [
    "Verif.BN.div_spec",
    "Verif.BN.div_by_zero",
    "Verif.BN.gcd_spec",
    "Verif.BN.exp_exact",
    "Verif.BN.exp_error",
    "Verif.BN.exp_zero_base",
    "Verif.BN.set_negative_spec"
   ],
   "note": "false of the code for base 0: 0^0 and 0^negative are answered with 0 (exp_zero_base); proved for everything else"
  },
  {
   "property": "C32",
   "status": "proved",
   "theorems": [
    "Verif.BLS.bls_accept_iff",
    "Verif.BLS.bls_honest_accepted",
    "Verif.BLS.bls_parse_length"
   ],
   "note": ""
  },
  {
   "property": "C33",
   "status": "proved",
   "theorems": [
    "Verif.BLS.bls_multisig_accept_iff",
    "Verif.BLS.bls_multisig_honest",
    "Verif.BLS.bls_multisig_one_bad"
   ],
   "note": ""
  },
  {
   "property": "C34",
   "status": "partial",
   "theorems": [
    "Verif.BLS.bls_multisig_empty_accepted",
    "Verif.BLS.bls_multisig_empty_iff"
   ],
   "note": "false of the code: the point at infinity is accepted for no signers (negation proved); nothing else is"
  },
  {
   "property": "C35",
   "status": "proved",
   "theorems": [
    "Verif.BLS.bls_pop_accept_iff",
    "Verif.BLS.bls_pop_honest",
    "Verif.BLS.Agg.agg_pop_accept_iff"
   ],
   "note": ""
  },
  {
   "property": "C65",
   "status": "proved",
   "theorems": [
    "Verif.BLS.Agg.agg_sig_accept_iff",
    "Verif.BLS.Agg.agg_sig_honest",
    "Verif.BLS.Agg.scheme_sign_verify",
    "Verif.BLS.Agg.keypair_from_secret",
    "Verif.BLS.Agg.keypair_values",
    "Verif.BLS.Agg.scheme_verify_iff",
    "Verif.BLS.Agg.combine_sum",
    "Verif.BLS.Agg.combined_accept_iff"
   ],
   "note": ""
  },
  {
   "property": "C66",
   "status": "proved",
   "theorems": [
    "Verif.BLS.Agg.agg_accept_iff",
    "Verif.BLS.Agg.agg_honest",
    "Verif.BLS.Agg.sigNewRk_panics"
   ],
   "note": ""
  },
  {
   "property": "C67",
   "status": "partial",
   "theorems": [
    "Verif.BLS.bls_rogue_key_accepted",
    "Verif.BLS.bls_rogue_pop",
    "Verif.BLS.Agg.no_rk_rogue_key_accepted",
    "Verif.BLS.Agg.no_rk_accept_iff"
   ],
   "note": "false of the code (documented for signatures::bls, not for bls/mod.rs): negation proved; a proof of possession for the rogue key yields a signature of the victim"
  },
  {
   "property": "C68",
   "status": "proved",
   "theorems": [
    "Verif.BLS.Agg.verify_multi_iff"
   ],
   "note": ""
  },
  {
   "property": "C69",
   "status": "proved",
   "theorems": [
    "Verif.BLS.Agg.batch_complete",
    "Verif.BLS.Agg.batch_sound",
    "Verif.BLS.Agg.batch_equal_exponents_cancel"
   ],
   "note": ""
  },
  {
   "property": "C70",
   "status": "partial",
   "theorems": [
    "Verif.BLS.Agg.default_contexts_disjoint",
    "Verif.BLS.Agg.context_not_separated",
    "Verif.BLS.Agg.pop_from_message_signature"
   ],
   "note": "holds for the two default contexts; false for caller-chosen contexts (negation proved)"
  },
  {
   "property": "C36",
   "status": "partial",
   "theorems": [
    "Verif.Symm.easy_round_trip_partial",
    "Verif.Symm.easy_round_trip_fails",
    "Verif.Symm.explicit_round_trip",
    "Verif.Symm.cbc_round_trip",
    "Verif.Symm.easy_round_trip_chacha",
    "Verif.Symm.unpad_spec"
   ],
   "note": "false of the code for short plaintexts (below 16, 12 and 8 bytes for AES-256-CBC-HMAC, GCM and ChaCha): exact characterisation and negation proved; primitives by contract"
  },
  {
   "property": "C37",
   "status": "proved",
   "theorems": [
    "Verif.Symm.decrypt_easy_rejects_short",
    "Verif.Symm.decrypt_easy_rejects_short_chacha"
   ],
   "note": ""
  },
  {
   "property": "C38",
   "status": "proved",
   "theorems": [
    "Verif.Symm.aad_authenticated"
   ],
   "note": "for an unmodified ciphertext; see C71 for modified ones"
  },
  {
   "property": "C71",
   "status": "partial",
   "theorems": [
    "Verif.Symm.aad_shift_forgery",
    "Verif.Symm.authenticated_same_length"
   ],
   "note": "false of the code: the MAC input has no separators, negation proved; holds for associated data of equal length"
  },
  {
   "property": "C72",
   "status": "proved",
   "theorems": [
    "Verif.Symm.buffer_eq_easy",
    "Verif.Symm.buffer_round_trip"
   ],
   "note": ""
  },
  {
   "property": "C73",
   "status": "proved",
   "theorems": [
    "Verif.Symm.encryptor_type_names",
    "Verif.Symm.gen_encryptor_iff",
    "Verif.Symm.valid_sizes",
    "Verif.Symm.explicit_nonce_panics_iff"
   ],
   "note": "wrong sizes panic"
  },
  {
   "property": "C74",
   "status": "partial",
   "theorems": [
    "Verif.Symm.serialize_round_trip",
    "Verif.Symm.deserialize_panics",
    "Verif.Symm.deserialize_cases",
    "Verif.Symm.hexVal_spec"
   ],
   "note": "false of the code: hexadecimal of another length panics; negation proved"
  },
  {
   "property": "C48",
   "status": "proved",
   "theorems": [
    "Verif.PoK.pok_complete",
    "Verif.PoK.pok_sound",
    "Verif.PoK.pok_perfect_hiding",
    "Verif.PoK.verify_complete_iff",
    "Verif.PoK.pok_complete_fiat_shamir",
    "Verif.PoK.verify_iff",
    "Verif.PoK.commit_get_index"
   ],
   "note": ""
  },
  {
   "property": "C39",
   "status": "proved",
   "theorems": [
    "Verif.BBS.bbs_verify_iff",
    "Verif.BBS.bbs_verify_errors",
    "Verif.BBS.bbs_sign_verify"
   ],
   "note": "see C75 for shorter message lists"
  },
  {
   "property": "C40",
   "status": "proved",
   "theorems": [
    "Verif.BBS.bbs_blind_issuance",
    "Verif.BBS.ctx_verify_iff",
    "Verif.BBS.bbs_blind_sign_checks",
    "Verif.BBS.bbs_complete_iff",
    "Verif.BBS.bbs_blind_sound"
   ],
   "note": ""
  },
  {
   "property": "C41",
   "status": "proved",
   "theorems": [
    "Verif.BBS.revealed_map_spec",
    "Verif.BBS.bbs_pok_complete",
    "Verif.BBS.bbs_init_ok_iff",
    "Verif.BBS.bbs_presentation_accepted",
    "Verif.BBS.bbs_joint_challenge"
   ],
   "note": ""
  },
  {
   "property": "C42",
   "status": "proved",
   "theorems": [
    "Verif.BBS.bbs_pok_extract",
    "Verif.BBS.bbs_pok_sound"
   ],
   "note": ""
  },
  {
   "property": "C43",
   "status": "partial",
   "theorems": [
    "Verif.BBS.bbs_request_not_enforced"
   ],
   "note": "false of the code: negation proved; the verifier's success depends only on the proof"
  },
  {
   "property": "C44",
   "status": "partial",
   "theorems": [
    "Verif.BBS.bbs_revealed_value_forged"
   ],
   "note": "false of the code: the revealed values are not hashed, a prover who chooses the challenge inputs can claim another value; negation proved"
  },
  {
   "property": "C45",
   "status": "proved",
   "theorems": [
    "Verif.BBS.pk_round_trip",
    "Verif.BBS.sig_round_trip",
    "Verif.BBS.sigproof_round_trip",
    "Verif.BBS.signature_proof_round_trip",
    "Verif.BBS.mapInsert_get",
    "Verif.BBS.blind_ctx_round_trip",
    "Verif.BBS.bitvector_round_trip",
    "Verif.BBS.proof_request_round_trip",
    "Verif.PoK.proof_round_trip"
   ],
   "note": ""
  },
  {
   "property": "C75",
   "status": "partial",
   "theorems": [
    "Verif.BBS.bbs_short_list_is_zero_padded"
   ],
   "note": "false of the code: a shorter list is signed as if padded with zero messages; negation proved"
  },
  {
   "property": "C76",
   "status": "partial",
   "theorems": [
    "Verif.BBS.resp_for_message_spec",
    "Verif.BBS.resp_for_message_shifted",
    "Verif.BBS.respForMessage_ok",
    "Verif.BBS.equal_messages_equal_responses",
    "Verif.BBS.bbs_equal_responses_sound"
   ],
   "note": "false of the code for the index: it counts hidden messages only (negation proved); the soundness and completeness of comparing responses is proved for that index"
  },
  {
   "property": "C77",
   "status": "partial",
   "theorems": [
    "Verif.BBS.resp_for_message_panics",
    "Verif.BBS.blind_ctx_index_panics",
    "Verif.BBS.blind_sign_index_panics",
    "Verif.BBS.pk_parse_panics_iff",
    "Verif.BBS.pk_parse_wellformed",
    "Verif.BBS.sig_and_ctx_parse_no_panic",
    "Verif.BBS.ctx_parse_short",
    "Verif.BBS.sigproof_parse_panics",
    "Verif.BBS.length_field_panics",
    "Verif.BBS.noncanonical_message_panics"
   ],
   "note": "false of the code: negations proved for each panicking entry point; the parsers that never panic are proved so"
  },
  {
   "property": "C78",
   "status": "proved",
   "theorems": [
    "Verif.BBS.to_public_key_spec",
    "Verif.BBS.generator_inputs_distinct",
    "Verif.BBS.key_generation"
   ],
   "note": ""
  },
  {
   "property": "C79",
   "status": "proved",
   "theorems": [
    "Verif.BBS.new_proof_request_spec"
   ],
   "note": "the bound accepts an index equal to the message count, as stated"
  },
  {
   "property": "C80",
   "status": "proved",
   "theorems": [
    "Verif.BBS.bbs_unlinkable"
   ],
   "note": ""
  },
  {
   "property": "C81",
   "status": "proved",
   "theorems": [
    "Verif.BBS.defaults_rejected",
    "Verif.BBS.boxed_garbage_rejected"
   ],
   "note": ""
  },
  {
   "property": "C46",
   "status": "proved",
   "theorems": [
    "Verif.PS.ps_verify_iff",
    "Verif.PS.ps_verify_cases",
    "Verif.PS.ps_sign_spec",
    "Verif.PS.ps_sign_verify",
    "Verif.PS.ps_sign_exceptional",
    "Verif.PS.ps_blind_eq_direct",
    "Verif.PS.ps_blind_paper_eq",
    "Verif.PS.ps_blind_errors",
    "Verif.PS.ps_blind_key_mismatch",
    "Verif.PS.ps_blind_sound"
   ],
   "note": ""
  },
  {
   "property": "C47",
   "status": "proved",
   "theorems": [
    "Verif.PS.pok_verify_iff",
    "Verif.PS.ps_init_ok_iff",
    "Verif.PS.ps_honest_iff",
    "Verif.PS.ps_pok_complete",
    "Verif.PS.ps_pok_extract",
    "Verif.PS.ps_pok_sound"
   ],
   "note": ""
  },
  {
   "property": "C82",
   "status": "proved",
   "theorems": [
    "Verif.PS.ps_revealed_bound",
    "Verif.PS.ps_single_revealed_bound"
   ],
   "note": "for several revealed values: up to a linear relation between the generators of the key"
  },
  {
   "property": "C83",
   "status": "partial",
   "theorems": [
    "Verif.PS.ps_resp_cases",
    "Verif.PS.ps_resp_spec",
    "Verif.PS.ps_resp_shifted",
    "Verif.PS.ps_equal_messages_equal_responses",
    "Verif.PS.ps_equal_responses_sound"
   ],
   "note": "false of the code for the index: it counts hidden messages only (negation proved); the comparison of responses is sound and complete for that index"
  },
  {
   "property": "C84",
   "status": "proved",
   "theorems": [
    "Verif.PS.ps_unlinkable"
   ],
   "note": ""
  },
  {
   "property": "C85",
   "status": "partial",
   "theorems": [
    "Verif.PS.ps_proof_never_parses",
    "Verif.PS.ps_proof_round_trip",
    "Verif.PS.ps_params_inputs_distinct"
   ],
   "note": "false of the code: the parser uses the element size of the wrong group and accepts nothing; negation proved, and the round trip for the right size"
  },
  {
   "property": "C86",
   "status": "partial",
   "theorems": [
    "Verif.PS.ps_verify_panics_iff",
    "Verif.PS.ps_extra_index_panics"
   ],
   "note": "false of the code: exact characterisation of the panics and negation proved"
  },
  {
   "property": "C87",
   "status": "proved",
   "theorems": [
    "Verif.Groth.groth_verify_true_iff",
    "Verif.Groth.groth_too_many",
    "Verif.Groth.groth_sign_ok",
    "Verif.Groth.groth_sign_verify",
    "Verif.Groth.groth_randomize_verify",
    "Verif.Groth.groth_randomize_reaches",
    "Verif.Groth.groth_sigkey_proof_complete",
    "Verif.Groth.groth_sigkey_proof_sound",
    "Verif.Groth.groth_setup_inputs_distinct",
    "Verif.Groth.groth_setup_shared"
   ],
   "note": ""
  },
  {
   "property": "C88",
   "status": "partial",
   "theorems": [
    "Verif.Groth.groth_prefix_accepted",
    "Verif.Groth.groth_same_length_unique"
   ],
   "note": "false of the code: accepted for every prefix (negation proved); lists of equal length are unique"
  },
  {
   "property": "C89",
   "status": "proved",
   "theorems": [
    "Verif.Groth.groth1_batch_complete",
    "Verif.Groth.groth1_batch_sound",
    "Verif.Groth.groth2_batch_complete",
    "Verif.Groth.groth2_batch_sound",
    "Verif.Groth.batch1_eq",
    "Verif.Groth.batch2_eq"
   ],
   "note": ""
  },
  {
   "property": "C90",
   "status": "proved",
   "theorems": [
    "Verif.Groth.delegate_spec",
    "Verif.Groth.rootDelegate_eq",
    "Verif.Groth.newIssuer_iff",
    "Verif.Groth.link_wrong_delegatee",
    "Verif.Groth.link_verify_odd",
    "Verif.Groth.link_verify_even"
   ],
   "note": ""
  },
  {
   "property": "C91",
   "status": "proved",
   "theorems": [
    "Verif.Groth.verifyDelegations_true_iff",
    "Verif.Groth.verifyDelegations_complete",
    "Verif.Groth.verifyDelegations_sound",
    "Verif.Groth.chain_validate_iff",
    "Verif.Groth.chain_validate_errors",
    "Verif.Groth.honest_accepted",
    "Verif.Groth.honest_progress",
    "Verif.Groth.verify_last"
   ],
   "note": ""
  },
  {
   "property": "C92",
   "status": "partial",
   "theorems": [
    "Verif.Groth.batched_complete",
    "Verif.Groth.batched_accepts_forged"
   ],
   "note": "false of the code: the powers of the random value are reused for even links, a forged chain is accepted for every draw (negation proved); completeness holds"
  },
  {
   "property": "C93",
   "status": "partial",
   "theorems": [
    "Verif.Groth.groth_batch_panic_iff",
    "Verif.Groth.link_empty_panics",
    "Verif.Groth.extend_lower_panics",
    "Verif.Groth.unbalanced_panics"
   ],
   "note": "false of the code: crashes characterised"
  },
  {
   "property": "C94",
   "status": "proved",
   "theorems": [
    "Verif.Groth.built_levels",
    "Verif.Groth.truncated_spec",
    "Verif.Groth.truncated_valid",
    "Verif.Groth.chain_get",
    "Verif.Groth.extendOdd_ok_iff",
    "Verif.Groth.extendEven_ok_iff"
   ],
   "note": ""
  },
  {
   "property": "C95",
   "status": "proved",
   "theorems": [
    "Verif.Groth.token_complete"
   ],
   "note": ""
  },
  {
   "property": "C96",
   "status": "partial",
   "theorems": [
    "Verif.Groth.token_sound",
    "Verif.Groth.token_unlisted_unchecked",
    "Verif.Groth.token_empty_accepted"
   ],
   "note": "extraction proved for what the verifier asks for; as stated false: attributes shown at indices not asked for are not checked, and zero levels are accepted (negations proved)"
  },
  {
   "property": "C97",
   "status": "partial",
   "theorems": [
    "Verif.Groth.commitment_bytes_inj",
    "Verif.Groth.reconstruct_shape",
    "Verif.Groth.challenge_check",
    "Verif.Groth.challenge_order_free",
    "Verif.Groth.challenge_order_matters",
    "Verif.Groth.challenge_shape_unbound"
   ],
   "note": "false of the code for two or more revealed attributes at a level (map iteration order is hashed; negation proved) and for the shape; proved for commitments of one shape"
  },
  {
   "property": "C98",
   "status": "partial",
   "theorems": [
    "Verif.Groth.token_panics_empty",
    "Verif.Groth.token_panics_missing",
    "Verif.Groth.token_panics_no_vk"
   ],
   "note": "false of the code: crashing tokens shown"
  },
  {
   "property": "C99",
   "status": "proved",
   "theorems": [
    "Verif.Groth.reconstruct_precomputed",
    "Verif.Groth.commitment_precomputed"
   ],
   "note": ""
  },
  {
   "property": "C100",
   "status": "proved",
   "theorems": [
    "Verif.Groth.token_indistinguishable"
   ],
   "note": ""
  },
  {
   "property": "C101",
   "status": "partial",
   "theorems": [
    "Verif.Groth.token_second_commitment_refused",
    "Verif.Groth.token_two_responses_leak"
   ],
   "note": "a second commitment cannot be answered (proved); a second response can be made and gives away the secret key (negation proved)"
  },
  {
   "property": "C102",
   "status": "proved",
   "theorems": [
    "Verif.CS.decrypt_encrypt",
    "Verif.CS.decrypt_encrypt_range",
    "Verif.CS.encrypt_too_many",
    "Verif.CS.keypair_total"
   ],
   "note": ""
  },
  {
   "property": "C103",
   "status": "partial",
   "theorems": [
    "Verif.CS.decrypt_other_label",
    "Verif.CS.decrypt_cut"
   ],
   "note": "another label is refused exactly unless a power of u is one (characterised); as stated false: bytes of cut-off elements can be moved into the label (negation proved for every hash function)"
  },
  {
   "property": "C104",
   "status": "proved",
   "theorems": [
    "Verif.CS.encryption_proof_complete"
   ],
   "note": ""
  },
  {
   "property": "C105",
   "status": "partial",
   "theorems": [
    "Verif.CS.proof_sound",
    "Verif.CS.sound_hypotheses_met",
    "Verif.CS.encrypt_wellFormed",
    "Verif.CS.flipped_accepted",
    "Verif.CS.zero_accepted",
    "Verif.CS.rest_not_proved"
   ],
   "note": "proved for well formed ciphertexts; the verifier does not check well-formedness, and each omitted check is shown to break the property (negations proved)"
  },
  {
   "property": "C106",
   "status": "partial",
   "theorems": [
    "Verif.CS.decrypt_no_panic",
    "Verif.CS.encrypt_no_panic",
    "Verif.CS.reconstruct_panics_iff"
   ],
   "note": "proved for encryption and decryption; the verifier crashes exactly on the inputs characterised"
  },
  {
   "property": "C107",
   "status": "partial",
   "theorems": [
    "Verif.CS.response_locates",
    "Verif.CS.response_reveals_messages"
   ],
   "note": "false of the code: the response locates the random value, and reveals the messages for challenges of at least n/4 (negation proved)"
  },
  {
   "property": "C108",
   "status": "proved",
   "theorems": [
    "Verif.CS.decrypt_sound",
    "Verif.CS.decrypt_sound_met"
   ],
   "note": ""
  },
  {
   "property": "C109",
   "status": "proved",
   "theorems": [
    "Verif.BP.ipp_complete",
    "Verif.BP.ipp_complete_met"
   ],
   "note": ""
  },
  {
   "property": "C110",
   "status": "proved",
   "theorems": [
    "Verif.BP.ipp_sound",
    "Verif.BP.ipp_sound_hypotheses_met"
   ],
   "note": "the extractor is a function of the scalars of the tree only; the run time and success probability of rewinding are not modelled"
  },
  {
   "property": "C111",
   "status": "partial",
   "theorems": [
    "Verif.BP.verifyIpp_bad_length_panics",
    "Verif.BP.verificationScalars_short_panics",
    "Verif.BP.verifyIpp_unequal_panics"
   ],
   "note": "false of the code: verify_ipp panics on a wrong number of points (negation proved); proofs of the right shape give ok or err (verifyIpp_iff)"
  },
  {
   "property": "C112",
   "status": "proved",
   "theorems": [
    "Verif.BP.prover_verifier_agree",
    "Verif.BP.r1cs_complete_met"
   ],
   "note": ""
  },
  {
   "property": "C113",
   "status": "proved",
   "theorems": [
    "Verif.BP.r1cs_complete",
    "Verif.BP.r1cs_complete_met"
   ],
   "note": ""
  },
  {
   "property": "C114",
   "status": "partial",
   "theorems": [
    "Verif.BP.prove_succeeds",
    "Verif.BP.prove_few_generators",
    "Verif.BP.prove_short_H_panics",
    "Verif.BP.verify_few_generators",
    "Verif.BP.verify_wrong_rounds",
    "Verif.BP.verify_short_R_panics",
    "Verif.BP.verify_errors_met"
   ],
   "note": "errors characterised; as stated false: too few generators H and too few points R crash (negations proved)"
  },
  {
   "property": "C115",
   "status": "proved",
   "theorems": [
    "Verif.BP.r1cs_sound",
    "Verif.BP.r1cs_sound_first_phase",
    "Verif.BP.r1cs_sound_hypotheses_met"
   ],
   "note": "the extractor is a function of the scalars of the tree only; openings of the commitments V are given (they cannot be extracted for values no constraint mentions); the run time and success probability of rewinding are not modelled"
  },
  {
   "property": "C116",
   "status": "partial",
   "theorems": [
    "Verif.BP.bounded_sound",
    "Verif.BP.bounded_accepted",
    "Verif.BP.bounded_complete",
    "Verif.BP.bounded_wide",
    "Verif.BP.bounded_panics"
   ],
   "note": "proved for 2^(n+1) not above the size of the field; the code does not check n, and for 2^n at least the size of the field every value is accepted (negation proved)"
  },
  {
   "property": "C117",
   "status": "proved",
   "theorems": [
    "Verif.BP.nonZero_sound",
    "Verif.BP.nonZero_accepted",
    "Verif.BP.nonZero_complete"
   ],
   "note": ""
  },
  {
   "property": "C118",
   "status": "proved",
   "theorems": [
    "Verif.BP.setMembership_sound",
    "Verif.BP.setMembership_accepted",
    "Verif.BP.setMembership_complete"
   ],
   "note": ""
  },
  {
   "property": "C119",
   "status": "proved",
   "theorems": [
    "Verif.BP.setNonMembership_sound",
    "Verif.BP.setNonMembership_accepted",
    "Verif.BP.setNonMembership_complete"
   ],
   "note": ""
  },
  {
   "property": "C120",
   "status": "partial",
   "theorems": [
    "Verif.BP.setMembershipAlt_sound_partial",
    "Verif.BP.setMembershipAlt_accepted_partial",
    "Verif.BP.setMembershipAlt_accepts_zero",
    "Verif.BP.setMembershipAlt_complete",
    "Verif.BP.setMembershipAlt_duplicates"
   ],
   "note": "false of the code: the value 0 is accepted for every nonempty set, because the bits in the products are not tied to the committed toggles (negation proved; accepted values are 0 or members); honest proofs fail if the value occurs several times in the set (proved)"
  },
  {
   "property": "C121",
   "status": "proved",
   "theorems": [
    "Verif.BP.mimc_sound",
    "Verif.BP.mimc_accepted",
    "Verif.BP.mimc_complete"
   ],
   "note": ""
  },
  {
   "property": "C122",
   "status": "proved",
   "theorems": [
    "Verif.BP.poseidon_sound",
    "Verif.BP.poseidon_accepted",
    "Verif.BP.poseidon_complete",
    "Verif.BP.permutation_sound",
    "Verif.BP.poseidonHash_ok",
    "Verif.BP.poseidonHash_eq_ok",
    "Verif.BP.poseidonHash_errors",
    "Verif.BP.poseidon_prover_errors",
    "Verif.BP.new_keys"
   ],
   "note": ""
  },
  {
   "property": "C123",
   "status": "partial",
   "theorems": [
    "Verif.BP.inverse_cheat",
    "Verif.BP.inverse_accepts_any",
    "Verif.BP.inverse_pending_panics",
    "Verif.BP.inverse_imposes",
    "Verif.BP.poseidon_complete"
   ],
   "note": "false of the code: the allocated input of the S-box is not tied to the linear combination, so every image is accepted for all committed values (negation proved); completeness proved when no S-box gets 0; what is imposed is only that outputs are not 0"
  },
  {
   "property": "C124",
   "status": "proved",
   "theorems": [
    "Verif.BP.verify_perm"
   ],
   "note": ""
  },
  {
   "property": "C125",
   "status": "proved",
   "theorems": [
    "Verif.BP.tree_history",
    "Verif.BP.toy_tree_met",
    "Verif.BP.unknown_root",
    "Verif.BP.mimc2Hash_hashes"
   ],
   "note": ""
  },
  {
   "property": "C126",
   "status": "proved",
   "theorems": [
    "Verif.BP.tree_proofs",
    "Verif.BP.proof_binding",
    "Verif.BP.verify_iff",
    "Verif.BP.short_proof_panics",
    "Verif.BP.long_proof_ignored",
    "Verif.BP.proof_index_mod",
    "Verif.BP.merkleHash_hashes",
    "Verif.BP.merkleHash_inputs",
    "Verif.BP.toy_tree_met"
   ],
   "note": ""
  },
  {
   "property": "C127",
   "status": "proved",
   "theorems": [
    "Verif.BP.leaf_sound",
    "Verif.BP.leaf_accepted",
    "Verif.BP.leaf_in_tree",
    "Verif.BP.leaf_complete",
    "Verif.BP.tree_leaf_complete",
    "Verif.BP.setup_once"
   ],
   "note": "for arity^depth at most the characteristic of the field; with the inverse S-box see C123"
  },
  {
   "property": "C128",
   "status": "partial",
   "theorems": [
    "Verif.BP.inner_node_accepted",
    "Verif.BP.root_accepted_as_leaf",
    "Verif.BP.below_leaf_accepted",
    "Verif.BP.leaf_node_count"
   ],
   "note": "false of the code: the number of levels is the number of committed nodes, not the depth: the root and every inner node are accepted as leaves, and in a 4-ary tree values below leaves (negations proved); what holds: the number of levels follows from the number of commitments"
  },
  {
   "property": "C129",
   "status": "partial",
   "theorems": [
    "Verif.FFI.missing_refused_partial",
    "Verif.FFI.missing_refused",
    "Verif.FFI.unguarded_undefined",
    "Verif.FFI.merge_unguarded_undefined",
    "Verif.FFI.delta_to_json_undefined",
    "Verif.FFI.null_element_undefined"
   ],
   "note": "false of the code for nine unchecked result pointers, for the serialization of deltas and for null elements of arrays (negations proved); proved in all other cases"
  },
  {
   "property": "C130",
   "status": "partial",
   "theorems": [
    "Verif.FFI.run_safe_partial",
    "Verif.FFI.run_from_start_partial",
    "Verif.FFI.call_safe",
    "Verif.FFI.delta_to_json_undefined",
    "Verif.FFI.delta_from_json_undefined",
    "Verif.FFI.merge_self_undefined",
    "Verif.FFI.merge_result_undefined"
   ],
   "note": "false of the code for three functions on registry deltas and for the unchecked result pointers (negations proved); proved for all programs that avoid these"
  },
  {
   "property": "C131",
   "status": "partial",
   "theorems": [
    "Verif.FFI.refusal_names_first_partial",
    "Verif.FFI.refusal_names_first",
    "Verif.FFI.codeOfParam_toNat",
    "Verif.FFI.Code.toNat_injective"
   ],
   "note": "false of the code for twelve parameters, for which the theorem gives the code that is returned"
  },
  {
   "property": "C132",
   "status": "partial",
   "theorems": [
    "Verif.FFI.stored_error_partial",
    "Verif.FFI.takesArray_iff",
    "Verif.FFI.null_array_stored_error",
    "Verif.FFI.stored_error_correct_partial",
    "Verif.FFI.ofKind_ofCode",
    "Verif.FFI.ofCode_ofKind",
    "Verif.FFI.ofKind_ne_success"
   ],
   "note": "false of the code for null arrays (negation proved); proved for the 118 functions without array parameters"
  },
  {
   "property": "C133",
   "status": "partial",
   "theorems": [
    "Verif.FFI.failed_call_keeps_partial",
    "Verif.FFI.failed_finalize_drops"
   ],
   "note": "false of the code for six functions (negation proved for all six); proved for the other 115"
  },
  {
   "property": "C134",
   "status": "proved",
   "theorems": [
    "Verif.FFI.every_type_released",
    "Verif.FFI.release_releases",
    "Verif.FFI.others_keep",
    "Verif.FFI.release_keeps_others",
    "Verif.FFI.double_free_undefined"
   ],
   "note": ""
  },
  {
   "property": "C135",
   "status": "proved",
   "theorems": [
    "Verif.CL.Rev.tails_protocol",
    "Verif.CL.Rev.protocol_at_most_one",
    "Verif.CL.Rev.accessLoop_ends",
    "Verif.CL.Rev.revoke_simple",
    "Verif.CL.Rev.recover_simple",
    "Verif.CL.Rev.register_simple",
    "Verif.CL.Rev.update_simple",
    "Verif.CL.Rev.witnessNew_simple",
    "Verif.CL.Rev.witnessUpdate_simple"
   ],
   "note": ""
  },
  {
   "property": "C136",
   "status": "partial",
   "theorems": [
    "Verif.CL.Rev.witness_update_atomic",
    "Verif.CL.Rev.single_atomic_partial",
    "Verif.CL.Rev.revoke_cases",
    "Verif.CL.Rev.recover_cases",
    "Verif.CL.Rev.register_cases",
    "Verif.CL.Rev.update_cases",
    "Verif.CL.Rev.update_not_atomic",
    "Verif.CL.Rev.revoke_retry"
   ],
   "note": "false of the code for a failing put_tail and for updates of several credentials (negations proved); proved for the witness and for single operations when tails can be put back"
  },
  {
   "property": "C137",
   "status": "partial",
   "theorems": [
    "Verif.Symm.ursa_encrypt_status",
    "Verif.Symm.ursa_decrypt_status",
    "Verif.Symm.argumentFault_spec",
    "Verif.Symm.null_algorithm_panics",
    "Verif.Symm.null_is_empty",
    "Verif.Symm.empty_nonce_refused",
    "Verif.Symm.ffi_sizes",
    "Verif.Symm.random_bytes_count"
   ],
   "note": "false of the code for a null or non-UTF-8 algorithm name (negation proved); proved for all other arguments"
  },
  {
   "property": "C138",
   "status": "partial",
   "theorems": [
    "Verif.Symm.ffi_round_trip_partial",
    "Verif.Symm.easy_is_nonce_then_explicit"
   ],
   "note": "false of the code for short plaintexts (C-independent defect, see the properties of symmetric encryption); the theorem gives the result of decryption in all cases"
  },
  {
   "property": "C139",
   "status": "proved",
   "theorems": [
    "Verif.Sig.ed25519_sign_verify",
    "Verif.Sig.ed25519_reload",
    "Verif.Sig.ed25519_expand",
    "Verif.Sig.generated"
   ],
   "note": ""
  },
  {
   "property": "C140",
   "status": "proved",
   "theorems": [
    "Verif.Sig.verify_iff",
    "Verif.Sig.sign_iff",
    "Verif.Sig.load_iff"
   ],
   "note": ""
  },
  {
   "property": "C141",
   "status": "proved",
   "theorems": [
    "Verif.Sig.ed25519_not_malleable",
    "Verif.Sig.ed25519_large_s_refused",
    "Verif.Sig.ed25519_extract"
   ],
   "note": ""
  },
  {
   "property": "C142",
   "status": "partial",
   "theorems": [
    "Verif.Sig.ed25519_message_binding_partial",
    "Verif.Sig.neutral_key_accepts_all",
    "Verif.Sig.secretScalar_shape"
   ],
   "note": "false for the neutral element as public key (negation proved); proved for non-zero multiples of the base point"
  },
  {
   "property": "C143",
   "status": "partial",
   "theorems": [
    "Verif.Sig.mismatched_key_accepted",
    "Verif.Sig.mismatched_key_reveals"
   ],
   "note": "false of the code: negation proved for every secret and point, with the consequence for the private scalar"
  },
  {
   "property": "C144",
   "status": "partial",
   "theorems": [
    "Verif.Sig.signer_panics",
    "Verif.Sig.signer_public_key_partial",
    "Verif.Sig.signer_public_key"
   ],
   "note": "false of the code: panics exactly where loading gives an error (negation proved)"
  },
  {
   "property": "C145",
   "status": "proved",
   "theorems": [
    "Verif.Sig.convert_commutes",
    "Verif.Sig.convert_agree",
    "Verif.Sig.convert_errors"
   ],
   "note": ""
  },
  {
   "property": "C146",
   "status": "proved",
   "theorems": [
    "Verif.Sig.x25519_agree",
    "Verif.Sig.x25519_reload",
    "Verif.Sig.x25519_clamped_bits",
    "Verif.Sig.x25519_ladder_order"
   ],
   "note": ""
  },
  {
   "property": "C147",
   "status": "partial",
   "theorems": [
    "Verif.Sig.x25519_short_keys_panic",
    "Verif.Sig.x25519_long_keys_cut",
    "Verif.Sig.x25519_total_partial"
   ],
   "note": "false of the code: negations proved, with the exact cases"
  },
  {
   "property": "C148",
   "status": "partial",
   "theorems": [
    "Verif.Sig.x25519_zero_key",
    "Verif.Sig.x25519_contributes_partial"
   ],
   "note": "false of the code for 32 zero bytes (negation proved); proved before hashing for multiples of the base point"
  },
  {
   "property": "C149",
   "status": "proved",
   "theorems": [
    "Verif.Sig.ffi_keys",
    "Verif.Sig.ffi_sign",
    "Verif.Sig.ffi_verify",
    "Verif.Sig.ffi_sign_verify"
   ],
   "note": ""
  },
  {
   "property": "C150",
   "status": "proved",
   "theorems": [
    "Verif.Sig.ecdsa_sign_verify",
    "Verif.Sig.ecdsa_reload",
    "Verif.Sig.ecdsa_load_iff"
   ],
   "note": ""
  },
  {
   "property": "C151",
   "status": "proved",
   "theorems": [
    "Verif.Sig.ecdsa_verify_iff",
    "Verif.Sig.ecdsa_accepted",
    "Verif.Sig.ecdsa_sign_iff"
   ],
   "note": ""
  },
  {
   "property": "C152",
   "status": "proved",
   "theorems": [
    "Verif.Sig.exactly_one_twin",
    "Verif.Sig.ecdsa_high_s_refused",
    "Verif.Sig.normalize_spec",
    "Verif.Sig.normalized_accepted"
   ],
   "note": ""
  },
  {
   "property": "C153",
   "status": "partial",
   "theorems": [
    "Verif.Sig.key_formats_partial",
    "Verif.Sig.key_form_irrelevant",
    "Verif.Sig.malformed_key_panics"
   ],
   "note": "false of the code for malformed keys (negation proved); proved for all keys that can be parsed"
  },
  {
   "property": "C154",
   "status": "partial",
   "theorems": [
    "Verif.Sig.short_seed_panics",
    "Verif.Sig.long_seed_cut",
    "Verif.Sig.seed_key_partial"
   ],
   "note": "false of the code (negations proved for all seeds concerned)"
  },
  {
   "property": "C155",
   "status": "proved",
   "theorems": [
    "Verif.Sig.ecdh_agree",
    "Verif.Sig.ecdh_errors"
   ],
   "note": ""
  },
  {
   "property": "C156",
   "status": "partial",
   "theorems": [
    "Verif.Sig.builds_agree_iff",
    "Verif.Sig.pure_sign_ignored"
   ],
   "note": "false of the code: the exact condition under which the builds agree is proved"
  },
  {
   "property": "C157",
   "status": "partial",
   "theorems": [
    "Verif.Sig.pure_load",
    "Verif.Sig.builds_load_alike_partial"
   ],
   "note": "false of the pure build (negation proved); proved for the native build and for 32 bytes"
  },
  {
   "property": "C158",
   "status": "proved",
   "theorems": [
    "Verif.BN.to_dec_is_decimal",
    "Verif.BN.dec_round_trip",
    "Verif.BN.serde_round_trip",
    "Verif.BN.to_dec_injective"
   ],
   "note": ""
  },
  {
   "property": "C159",
   "status": "proved",
   "theorems": [
    "Verif.BN.hex_round_trip",
    "Verif.BN.to_hex_differs"
   ],
   "note": ""
  },
  {
   "property": "C160",
   "status": "partial",
   "theorems": [
    "Verif.BN.rust_parse_ok_iff",
    "Verif.BN.rust_parse_total",
    "Verif.BN.ossl_parse_ok_iff",
    "Verif.BN.ossl_parse_panic_iff",
    "Verif.BN.plain_text_agrees",
    "Verif.BN.accepted_by_both_agrees",
    "Verif.BN.builds_read_differently"
   ],
   "note": "false of the code: negation proved; what each build accepts is proved exactly, with agreement on plain numerals"
  },
  {
   "property": "C161",
   "status": "proved",
   "theorems": [
    "Verif.BN.agree_plain",
    "Verif.BN.agree_clone",
    "Verif.BN.agree_modulus",
    "Verif.BN.agree_inverse",
    "Verif.BN.agree_mod_exp",
    "Verif.BN.agree_mod_div",
    "Verif.BN.agree_random_qr",
    "Verif.BN.ossl_inverse_spec",
    "Verif.BN.is_prime_agree"
   ],
   "note": "OpenSSL functions by contract"
  },
  {
   "property": "C162",
   "status": "proved",
   "theorems": [
    "Verif.BN.to_bytes_agree_iff",
    "Verif.BN.from_u32_agree_iff",
    "Verif.BN.increment_agree_iff",
    "Verif.BN.rshift1_agree_iff",
    "Verif.BN.rshift_agree_iff",
    "Verif.BN.is_bit_set_agree_iff",
    "Verif.BN.set_bit_agree",
    "Verif.BN.set_bit_differs",
    "Verif.BN.exp_agree_iff",
    "Verif.BN.mod_exp_zero_modulus",
    "Verif.BN.inverse_differs",
    "Verif.BN.rand_range_differs"
   ],
   "note": "OpenSSL functions by contract; inverses of negative numbers by counterexample"
  },
  {
   "property": "C163",
   "status": "partial",
   "theorems": [
    "Verif.BN.ossl_prime_in_range",
    "Verif.BN.rust_prime_in_range",
    "Verif.BN.rust_prime_in_range_negative",
    "Verif.BN.rust_prime_in_range_returns_end",
    "Verif.BN.prime_in_range_never_ends",
    "Verif.BN.cl_exponent_in_range",
    "Verif.BN.ossl_is_safe_prime_iff",
    "Verif.BN.ossl_is_safe_prime_complete"
   ],
   "note": "false of the code in the cases stated (negations proved)"
  },
  {
   "property": "C164",
   "status": "proved",
   "theorems": [
    "Verif.Pair.scalar_programs",
    "Verif.Pair.seed_length",
    "Verif.Pair.scalar_reduced",
    "Verif.Pair.scalar_equality",
    "Verif.Pair.response_eq"
   ],
   "note": "AMCL BIG functions by contract"
  },
  {
   "property": "C165",
   "status": "partial",
   "theorems": [
    "Verif.Pair.sub_mod_distance",
    "Verif.Pair.sub_mod_correct_iff",
    "Verif.Pair.sub_mod_wrong"
   ],
   "note": "false of the code: the result is the absolute value of the difference (negation proved, exact condition proved)"
  },
  {
   "property": "C166",
   "status": "partial",
   "theorems": [
    "Verif.Pair.scalar_round_trip",
    "Verif.Pair.scalar_from_bytes",
    "Verif.Pair.scalar_from_bytes_eq",
    "Verif.Pair.scalar_encoding_not_unique"
   ],
   "note": "false of the code for uniqueness: values from the group order on are accepted (negation proved); the rest proved"
  },
  {
   "property": "C167",
   "status": "partial",
   "theorems": [
    "Verif.Pair.bignum_to_scalar",
    "Verif.Pair.scalar_bignum_scalar",
    "Verif.Pair.bignum_sign_lost",
    "Verif.Pair.index_power"
   ],
   "note": "false of the code for negative numbers (negation proved); the rest proved"
  },
  {
   "property": "C168",
   "status": "proved",
   "theorems": [
    "Verif.Pair.fromHash_least"
   ],
   "note": "AMCL ECP::new_big by contract"
  },
  {
   "property": "C169",
   "status": "partial",
   "theorems": [
    "Verif.Pair.fromHash_adjacent",
    "Verif.Pair.fromHash_injective",
    "Verif.Pair.signature_shared"
   ],
   "note": "false of the code: negation proved, with the exact condition for sharing a point"
  },
  {
   "property": "C170",
   "status": "proved",
   "theorems": [
    "Verif.CL.primaryPubKey_round_trip",
    "Verif.CL.primaryPrivKey_round_trip",
    "Verif.CL.keyProof_round_trip",
    "Verif.CL.revPubKey_round_trip",
    "Verif.CL.revPrivKey_round_trip",
    "Verif.CL.credPubKey_round_trip",
    "Verif.CL.credPrivKey_round_trip",
    "Verif.CL.blinded_round_trip",
    "Verif.CL.blindingFactors_round_trip",
    "Verif.CL.blindedProof_round_trip",
    "Verif.CL.primarySig_round_trip",
    "Verif.CL.nonRevSig_round_trip",
    "Verif.CL.credSig_round_trip",
    "Verif.CL.sigProof_round_trip",
    "Verif.CL.masterSecret_round_trip",
    "Verif.CL.values_round_trip",
    "Verif.CL.schema_round_trip",
    "Verif.CL.one_round_trip",
    "Verif.CL.delta_round_trip",
    "Verif.CL.tailsGen_round_trip",
    "Verif.CL.proof_round_trip"
   ],
   "note": "documents are syntax trees; texts of points and scalars by contract (decoding what was encoded)"
  },
  {
   "property": "C171",
   "status": "proved",
   "theorems": [
    "Verif.CL.old_key_read",
    "Verif.CL.old_key_zero",
    "Verif.CL.old_key_same",
    "Verif.CL.old_proof_read",
    "Verif.CL.old_proof_zero"
   ],
   "note": ""
  },
  {
   "property": "C172",
   "status": "partial",
   "theorems": [
    "Verif.CL.primaryPubKey_format",
    "Verif.CL.primaryPubKey_safe",
    "Verif.CL.primaryPrivKey_format",
    "Verif.CL.primaryPrivKey_safe",
    "Verif.CL.keyProof_format",
    "Verif.CL.keyProof_safe",
    "Verif.CL.revPubKey_format",
    "Verif.CL.revPubKey_safe",
    "Verif.CL.revPrivKey_format",
    "Verif.CL.revPrivKey_safe",
    "Verif.CL.credPubKey_format",
    "Verif.CL.credPubKey_safe",
    "Verif.CL.credPrivKey_format",
    "Verif.CL.credPrivKey_safe",
    "Verif.CL.blinded_format",
    "Verif.CL.blinded_safe",
    "Verif.CL.blindingFactors_format",
    "Verif.CL.blindingFactors_safe",
    "Verif.CL.blindedProof_format",
    "Verif.CL.blindedProof_safe",
    "Verif.CL.primarySig_format",
    "Verif.CL.primarySig_safe",
    "Verif.CL.witnessSig_format",
    "Verif.CL.witnessSig_safe",
    "Verif.CL.nonRevSig_format",
    "Verif.CL.nonRevSig_safe",
    "Verif.CL.credSig_format",
    "Verif.CL.credSig_safe",
    "Verif.CL.sigProof_format",
    "Verif.CL.sigProof_safe",
    "Verif.CL.masterSecret_format",
    "Verif.CL.masterSecret_safe",
    "Verif.CL.values_format",
    "Verif.CL.values_safe",
    "Verif.CL.schema_format",
    "Verif.CL.schema_safe",
    "Verif.CL.delta_format",
    "Verif.CL.delta_safe",
    "Verif.CL.tailsGen_format",
    "Verif.CL.tailsGen_safe",
    "Verif.CL.predicate_format",
    "Verif.CL.predicate_safe",
    "Verif.CL.eqProof_format",
    "Verif.CL.eqProof_safe",
    "Verif.CL.neProof_format",
    "Verif.CL.neProof_safe",
    "Verif.CL.primaryProof_format",
    "Verif.CL.primaryProof_safe",
    "Verif.CL.xList_format",
    "Verif.CL.xList_safe",
    "Verif.CL.cList_format",
    "Verif.CL.cList_safe",
    "Verif.CL.nonRevoc_format",
    "Verif.CL.nonRevoc_safe",
    "Verif.CL.subProof_format",
    "Verif.CL.subProof_safe",
    "Verif.CL.aggregated_format",
    "Verif.CL.aggregated_safe",
    "Verif.CL.proof_format",
    "Verif.CL.proof_safe",
    "Verif.CL.readEntries_spec",
    "Verif.CL.native_crashes",
    "Verif.CL.number_ranges",
    "Verif.CL.optional_fields"
   ],
   "note": "false of the native build for crashes (negation proved; without the character of code 0 it is safe); the rest proved. Texts of points and scalars are decoded by contract"
  },
  {
   "property": "C173",
   "status": "partial",
   "theorems": [
    "Verif.CL.generator_interrupted",
    "Verif.CL.generator_count",
    "Verif.CL.revealed_texts",
    "Verif.CL.generator_not_checked"
   ],
   "note": "false of the code for documents with an index beyond the size (negation proved); the rest proved"
  },
  {
   "property": "C174",
   "status": "proved",
   "theorems": [
    "Verif.CL.schema_builder",
    "Verif.CL.schema_order",
    "Verif.CL.values_call",
    "Verif.CL.values_builder",
    "Verif.CL.values_order",
    "Verif.CL.values_dec",
    "Verif.CL.values_stored",
    "Verif.CL.fromDecOf_ok_iff"
   ],
   "note": ""
  },
  {
   "property": "C175",
   "status": "proved",
   "theorems": [
    "Verif.CL.request_call",
    "Verif.CL.request_builder",
    "Verif.CL.request_order",
    "Verif.CL.request_read",
    "Verif.CL.request_format"
   ],
   "note": ""
  },
  {
   "property": "C176",
   "status": "partial",
   "theorems": [
    "Verif.Wasm.hex_accepts",
    "Verif.Wasm.hex_value",
    "Verif.Wasm.hex_lower",
    "Verif.Wasm.hex_same",
    "Verif.Wasm.key_round_trip",
    "Verif.Wasm.key_document",
    "Verif.Wasm.option_document",
    "Verif.Wasm.display_reveals",
    "Verif.Wasm.display_injective"
   ],
   "note": "false of the code for printing (negation proved: the bytes are recovered from the printed text); the rest proved"
  },
  {
   "property": "C177",
   "status": "partial",
   "theorems": [
    "Verif.Wasm.wasm_native",
    "Verif.Wasm.wasm_native_secp",
    "Verif.Wasm.wasm_bad_key_crashes",
    "Verif.Wasm.wasm_errors_say_nothing",
    "Verif.Wasm.wasm_ed25519",
    "Verif.Wasm.wasm_ed25519_keys",
    "Verif.Wasm.wasm_ed25519_verify",
    "Verif.Wasm.wasm_ed25519_crash_iff",
    "Verif.Wasm.wasm_x25519",
    "Verif.Wasm.wasm_x25519_crash_iff",
    "Verif.Wasm.wasm_ecdsa",
    "Verif.Wasm.wasm_ecdh"
   ],
   "note": "false of the code for malformed keys and for the texts of exceptions (negations proved); the rest proved; ECDSA as in the native build"
  },
  {
   "property": "C178",
   "status": "partial",
   "theorems": [
    "Verif.Wasm.with_key_iff",
    "Verif.Wasm.cipher_new",
    "Verif.Wasm.wasm_cipher_outcome",
    "Verif.Wasm.wasm_cipher_round_trip_partial"
   ],
   "note": "false of the code for short plaintexts only (exact thresholds proved)"
  },
  {
   "property": "C179",
   "status": "partial",
   "theorems": [
    "Verif.Wasm.bls_json_round_trip",
    "Verif.Wasm.bls_json_consistent_partial",
    "Verif.Wasm.bls_json_key_confusion",
    "Verif.Wasm.wasm_bls_verify",
    "Verif.Wasm.wasm_multisig",
    "Verif.Wasm.wasm_multisig_honest"
   ],
   "note": "false of the code for inconsistent documents and for unreadable ones (negations proved); the rest proved"
  },
  {
   "property": "C180",
   "status": "partial",
   "theorems": [
    "Verif.BP.Bls381.params_exist",
    "Verif.BP.Bls381.permutation_bijective",
    "Verif.BP.Bls381.round_diffuses",
    "Verif.BP.Bls381.cube_collision",
    "Verif.BP.Bls381.order_prime",
    "Verif.BP.Bls381.perm_met"
   ],
   "note": "false of the code for the cube S-box (negation proved for all inputs and positions); proved for the other two, with the constants of the source and the order of BLS12-381, whose primality is proved"
  },
  {
   "property": "C181",
   "status": "partial",
   "theorems": [
    "Verif.BP.Bls381.cube_proof",
    "Verif.BP.Bls381.cube_update",
    "Verif.BP.proof_binding",
    "Verif.BP.tree_history"
   ],
   "note": "false of the code for the cube S-box (negation proved); for hash functions without collisions among the nodes: proof_binding and tree_history"
  },
  {
   "property": "C182",
   "status": "proved",
   "theorems": [
    "Verif.BP.r1cs_hiding",
    "Verif.BP.r1cs_hiding_session",
    "Verif.BP.commitment_hiding",
    "Verif.BP.r1cs_hiding_met"
   ],
   "note": "perfect witness indistinguishability by counting random values; the transcript hash is an arbitrary function; h generates the group"
  },
  {
   "property": "C183",
   "status": "proved",
   "theorems": [
    "Verif.Errors.document_read",
    "Verif.Errors.store_text",
    "Verif.Errors.message_kind",
    "Verif.Errors.message_kind_inj",
    "Verif.Errors.document_met",
    "Verif.Errors.converted_text"
   ],
   "note": "the reader of JSON documents is written independently of the writer; texts are lists of characters"
  },
  {
   "property": "C184",
   "status": "proved",
   "theorems": [
    "Verif.Errors.own_last_error",
    "Verif.Errors.fail_possible",
    "Verif.Errors.pointer_stable",
    "Verif.Errors.pointer_freed",
    "Verif.Errors.pointer_freed_exit",
    "Verif.Errors.no_leak",
    "Verif.Errors.stale_pointer_met"
   ],
   "note": "thread-local storage and the allocator are modelled: a fresh address is any address without a live string"
  },
  {
   "property": "C185",
   "status": "proved",
   "theorems": [
    "Verif.Errors.one_success",
    "Verif.Errors.success_lasts",
    "Verif.Errors.failed_call_no_effect",
    "Verif.Errors.call_can_finish",
    "Verif.Errors.logger_met"
   ],
   "note": "steps of the crate log (compare-and-exchange, store, set_max_level) interleaved in any way, sequentially consistent memory"
  },
  {
   "property": "C186",
   "status": "partial",
   "theorems": [
    "Verif.Errors.customLog_spec",
    "Verif.Errors.customEnabled_spec",
    "Verif.Errors.all_delivered",
    "Verif.Errors.nul_panics",
    "Verif.Errors.delivered_to_asked",
    "Verif.Errors.logger_met"
   ],
   "note": "false of the code: enabled is never asked (all_delivered, logger_met prove that records are delivered although it says no) and a record with the character 0 panics (nul_panics); that the values are exactly those of the record is proved"
  },
  {
   "property": "C187",
   "status": "proved",
   "theorems": [
    "Verif.CL.cl_hiding",
    "Verif.CL.cl_unlinkable",
    "Verif.CL.show_ok",
    "Verif.CL.toy_issued1",
    "Verif.CL.toy_issued2",
    "Verif.CL.toy_same"
   ],
   "note": "statistical distance by a bounded shift of the random values; the hash is an arbitrary function with 32-byte results; random values are uniform in their ranges; the signature lies in the subgroup generated by S, as issued signatures do"
  },
  {
   "property": "C188",
   "status": "partial",
   "theorems": [
    "Verif.CL.nonrev_tag",
    "Verif.CL.nonrev_presentations_linkable"
   ],
   "note": "false of the code: both parts of a presentation answer for the credential context with the same mask, so anybody computes the context, exactly, from one presentation (negation proved for all random values)"
  },
  {
   "property": "C189",
   "status": "partial",
   "theorems": [
    "Verif.CL.predicate_value_identified"
   ],
   "note": "false of the code: the mask of the blinding factor has 672 bits against 2128 (negation proved: the presentation determines the value, for an observer who can search the remaining candidates); for presentations without predicates C187 is proved"
  },
  {
   "property": "C190",
   "status": "proved",
   "theorems": [
    "Verif.CL.obtained_issued",
    "Verif.CL.obtained_hiding",
    "Verif.CL.toy_obtained",
    "Verif.CL.toy_obtained_view"
   ],
   "note": "any successful run with the private key of the issuer; issuance without the revocation part; random numbers of the issuance are arbitrary in their ranges"
  },
  {
   "property": "C191",
   "status": "proved",
   "theorems": [
    "Verif.CL.predicate_proof_special_sound"
   ],
   "note": "the extracted number is a rational: the challenge difference need not divide the answers (the usual strong RSA argument is not modelled)"
  },
  {
   "property": "C192",
   "status": "proved",
   "theorems": [
    "Verif.CL.presentation_special_sound",
    "Verif.CL.known_item",
    "Verif.CL.tauListBytes_injective",
    "Verif.CL.honest_fork"
   ],
   "note": "special soundness of the interactive form: both presentations carry the same commitments; the code itself does not tie the commitments that are hashed (cList) to those used in the checks (C52), nor the hidden number of a predicate to that of the equality proof (C22)"
  },
  {
   "property": "C193",
   "status": "proved",
   "theorems": [
    "Verif.CL.Rev.rebuilt_delta"
   ],
   "note": "legal histories as in C25"
  },
  {
   "property": "C194",
   "status": "proved",
   "theorems": [
    "Verif.CL.Panic.verify_never_panics",
    "Verif.CL.Panic.boundFits_iff",
    "Verif.CL.Panic.verify_panics_zero_modulus",
    "Verif.CL.Panic.verifyNe_panics_overflow"
   ],
   "note": "the native big numbers, whose mod_exp panics for the modulus zero (modExp_panics_iff); those of OpenSSL return an error there"
  },
  {
   "property": "C195",
   "status": "proved",
   "theorems": [
    "Verif.CL.Panic.blind_never_panics",
    "Verif.CL.Panic.process_never_panics",
    "Verif.CL.Panic.add_never_panics",
    "Verif.CL.Panic.finalize_never_panics",
    "Verif.CL.Panic.getDelta_panics_iff",
    "Verif.CL.Panic.initNe_panics_overflow"
   ],
   "note": "the exception in builds with overflow checks is proved to be real"
  },
  {
   "property": "C196",
   "status": "partial",
   "theorems": [
    "Verif.CL.failed_add_effect_partial",
    "Verif.CL.spoilt_builder_rejected",
    "Verif.CL.addCall_result",
    "Verif.CL.spoilt_met"
   ],
   "note": "false of the code with revocation data: proved exactly when the builder is unchanged, and that a spoilt builder gives only rejected proofs"
  },
  {
   "property": "C197",
   "status": "proved",
   "theorems": [
    "Verif.CL.HidingRev.cl_hiding_nonrevoc",
    "Verif.CL.HidingRev.cl_unlinkable_nonrevoc",
    "Verif.CL.HidingRev.present_ok",
    "Verif.CL.HidingRev.same_nonrevoc",
    "Verif.CL.HidingRev.shiftRand_inj",
    "Verif.CL.HidingRev.Met.sameView",
    "Verif.CL.HidingRev.Met.sameRevoc"
   ],
   "note": "the field elements of the non-revocation part are uniform and are moved by a bijection at no cost; htilde and hCap generate the groups of prime order; the complement of C188"
  },
  {
   "property": "C198",
   "status": "proved",
   "theorems": [
    "Verif.Forking.forking",
    "Verif.Forking.vector_commitment_known",
    "Verif.Forking.blind_messages_known",
    "Verif.Forking.bbs_signature_known",
    "Verif.Forking.ps_signature_known",
    "Verif.Forking.Met.ps_known_met"
   ],
   "note": "random-oracle model, finite field; for BBS+ the revealed values are fixed in advance (C44 shows that this is needed)"
  },
  {
   "property": "C199",
   "status": "proved",
   "theorems": [
    "Verif.Forking.token_holder_known",
    "Verif.Forking.honest_holder_known",
    "Verif.Forking.reconstruct_again"
   ],
   "note": "random-oracle model, finite field; the shape is fixed by the verifier (C97 shows that the hash does not bind it); maps are read in a fixed order"
  },
  {
   "property": "C200",
   "status": "proved",
   "theorems": [
    "Verif.BLS.multisig_unforgeable",
    "Verif.BLS.multisig_of_one",
    "Verif.BLS.Agg.aggregate_unforgeable",
    "Verif.BLS.Agg.signer_covers",
    "Verif.BLS.insider_bound",
    "Verif.Forgery.reduction"
   ],
   "note": "random-oracle model (from_hash never returns the point at infinity); groups of prime order; the variant with key coefficients (new_with_rk_mitigation) is C211"
  },
  {
   "property": "C201",
   "status": "proved",
   "theorems": [
    "Verif.Sig.ed25519_unforgeable",
    "Verif.Sig.toyForger_extracted",
    "Verif.Schnorr.world2",
    "Verif.Schnorr.world3",
    "Verif.Schnorr.twice"
   ],
   "note": "random-oracle model for SHA-512; key pairs from KeyGenOption None with a uniform secret; ed25519-dalek's algorithms as written out in the model"
  },
  {
   "property": "C202",
   "status": "proved",
   "theorems": [
    "Verif.BP.challenges_bind_the_proof",
    "Verif.BP.transcript_binds_the_first_phase",
    "Verif.BP.verify_from",
    "Verif.BP.first_phase_met"
   ],
   "note": "messages are framed with their labels and encodings of points and scalars are injective (as in Merlin)"
  },
  {
   "property": "C203",
   "status": "partial",
   "theorems": [
    "Verif.BP.claim_after_proof",
    "Verif.BP.mimc_image_after_proof",
    "Verif.BP.poseidon_image_after_proof",
    "Verif.BP.root_after_proof",
    "Verif.BP.mimc_image_after_proof_met"
   ],
   "note": "false of the code, and the negation is proved: the constants of the constraints are not hashed; the honest prover of one image, with T_1 moved, is accepted for another image that it computes from the challenges"
  },
  {
   "property": "C204",
   "status": "proved",
   "theorems": [
    "Verif.CL.Forgery.credentials_unforgeable",
    "Verif.CL.Forgery.insider_wins",
    "Verif.CL.Forgery.Toy.reduction_succeeds",
    "Verif.SRSA.forgery_takes_roots"
   ],
   "note": "reduction to the strong RSA problem in the group of units modulo PQ, concrete bound.  Assumed: P, Q safe primes with halves above emax; issued exponents are distinct primes of the range [emin, emax] and so is the forged one; all values lie in [0, emin) (C205 shows that such a bound is needed).  The forger hands over hidden values and v' in the clear, not behind the proof of the blinded secrets, and does not see the signature correctness proof"
  },
  {
   "property": "C205",
   "status": "partial",
   "theorems": [
    "Verif.CL.Shift.revealed_value_moved",
    "Verif.CL.Shift.moved_honest",
    "Verif.CL.Shift.moved_equation",
    "Verif.CL.Shift.present_reveals",
    "Verif.CL.Shift.Met.other_name_shown"
   ],
   "note": "false of the code, and the negation is proved: the holder divides A by R_k^c and shows m + e c; no value is bounded by the verifier.  Proved: the library reveals exactly the values it is given (present_reveals), and C204 for values below the smallest exponent"
  },
  {
   "property": "C206",
   "status": "partial",
   "theorems": [
    "Verif.CL.Shift.different_values_common",
    "Verif.CL.Shift.moved_honest",
    "Verif.CL.Shift.common_value",
    "Verif.CL.Shift.Met.two_secrets_shown"
   ],
   "note": "false of the code, and the negation is proved for any number of credentials with coprime exponents: the values are moved, each by a multiple of its exponent, to one common value (Chinese remainders).  That the answers for the common attribute agree is C21"
  },
  {
   "property": "C207",
   "status": "proved",
   "theorems": [
    "Verif.Groth.comm_counts",
    "Verif.Groth.resp_counts",
    "Verif.Groth.wrong_counts_refused",
    "Verif.Groth.counts_met"
   ],
   "note": "the split of the answers into odd and even levels is not checked by the code, and not claimed here"
  },
  {
   "property": "C208",
   "status": "proved",
   "theorems": [
    "Verif.BBS.Forgery.bbs_unforgeable",
    "Verif.BBS.Forgery.answer_eq",
    "Verif.BBS.Forgery.Met.insider_wins",
    "Verif.BBS.Forgery.Met.reduction_succeeds",
    "Verif.SDH.forgery_solves"
   ],
   "note": "reduction to the strong Diffie-Hellman problem with g1 fixed, concrete bound, no random oracle.  Generators of the key are uniform points; e and s are uniform; the forger hands over the content of its commitments in the clear (C198 extracts it from the proof)"
  },
  {
   "property": "C209",
   "status": "partial",
   "theorems": [
    "Verif.PS.Forgery.blinding_key_signs",
    "Verif.PS.Forgery.outsider_wins",
    "Verif.PS.Forgery.outsider_probability"
   ],
   "note": "false of the code, and the negation is proved for all keys and messages: a forger without orders wins with probability at least 1 - 1/p.  What holds without X is C210"
  },
  {
   "property": "C210",
   "status": "proved",
   "theorems": [
    "Verif.PS.Forgery.ps_unforgeable",
    "Verif.PS.Forgery.answer_eq",
    "Verif.PS.Forgery.solves",
    "Verif.PS.Forgery.Met.insider_wins",
    "Verif.PS.Forgery.Met.reduction_succeeds"
   ],
   "note": "reduction to the PS problem with one message (an interactive assumption, as in the paper), concrete bound.  x, y_i and u are uniform; the forger hands over the content of its commitments in the clear"
  },
  {
   "property": "C211",
   "status": "proved",
   "theorems": [
    "Verif.BLS.Agg.rogue_keys_useless",
    "Verif.BLS.Agg.signer_covers_rk",
    "Verif.BLS.Agg.insider_bound",
    "Verif.Forking.forking_keep"
   ],
   "note": "random-oracle model: the hash to the group is uniform on the non-zero points, from_msg_hash is uniform on the field and independent of it; the attacked key occurs in the list a number of times that is not a multiple of p"
  },
  {
   "property": "C212",
   "status": "proved",
   "theorems": [
    "Verif.BBS.Forgery.presentations_unforgeable",
    "Verif.BBS.Forgery.accepted_iff",
    "Verif.BBS.Forgery.rewound_wins",
    "Verif.BBS.Forgery.Met.shower_wins",
    "Verif.BBS.Forgery.Met.presentation_reduction_succeeds",
    "Verif.Forking.forking_each"
   ],
   "note": "random-oracle model for the challenge of the presentation, which is asked after the nonce is known (hash values for other strings may be any function known to the holders: P.hashFr, or part of the coins R); revealed values are fixed before the hash function is asked (C44 shows that this is needed); content of commitments is handed over in the clear; built on C198 and C208"
  },
  {
   "property": "C213",
   "status": "proved",
   "theorems": [
    "Verif.PS.Forgery.proofs_unforgeable",
    "Verif.PS.Forgery.rewound_wins",
    "Verif.PS.Forgery.Met.shower_wins",
    "Verif.PS.Forgery.Met.proof_reduction_succeeds"
   ],
   "note": "random-oracle model for the challenge, asked after the orders; the PS problem with one message is an interactive assumption; content of commitments is handed over in the clear; built on C198 and C210"
  },
  {
   "property": "C214",
   "status": "proved",
   "theorems": [
    "Verif.Symm.ciphertexts_unforgeable",
    "Verif.Symm.ciphertexts_unforgeable_instances",
    "Verif.Symm.forgery_forges_mac"
   ],
   "note": "HMAC is a uniformly random function on the strings that occur; associated data of equal length, which is necessary (C71: aad_shift_forgery); nonces arbitrary"
  },
  {
   "property": "C215",
   "status": "proved",
   "theorems": [
    "Verif.Symm.messages_hidden",
    "Verif.Symm.game_close"
   ],
   "note": "AES under a random key is a uniformly random permutation of the blocks, nonces are uniform and independent; the MAC is arbitrary, with a key independent of the AES key"
  },
  {
   "property": "C216",
   "status": "proved",
   "theorems": [
    "Verif.Symm.messages_hidden_cca",
    "Verif.Symm.shifter_reads",
    "Verif.Symm.shifter_certain"
   ],
   "note": "HMAC a random function, AES a random permutation, independent of each other; random nonces"
  },
  {
   "property": "C217",
   "status": "proved",
   "theorems": [
    "Verif.CS.encryption_hides",
    "Verif.CS.factors_tell",
    "Verif.CS.factors_solve"
   ],
   "note": "chosen plaintexts; p, q and g' are fixed and arbitrary (safe primes whose product is coprime to p'q', which 1024-bit primes satisfy; g' coprime to n); the solvers' problem is the decision problem of the paper (powers of g against g^r (n+1)^s)"
  },
  {
   "property": "C218",
   "status": "partial",
   "theorems": [
    "Verif.CS.errors_reveal_messages",
    "Verif.CS.forget_decrypt"
   ],
   "note": "false of the code: the error prints u^(2(hash x3 + x2)) for any u; two such texts and one decryption of a ciphertext made from them give all messages (attack proved for all keys, messages, random values and hash functions for which two labels have hash values with a difference coprime to n)"
  },
  {
   "property": "C219",
   "status": "proved",
   "theorems": [
    "Verif.CS.CCA.chosen_ciphertexts_hide",
    "Verif.CS.CCA.cut_tells"
   ],
   "note": "the service refuses a u that is not invertible modulo n (the code does not check this; whoever finds one has factored n) and does not print the numbers of the error u^2 != v^2 (the code does: C218); hash values are compared, not ciphertexts, because the hash input is not injective (C103, cut_tells); the solver decrypts with exponents it drew itself"
  },
  {
   "property": "C220",
   "status": "proved",
   "theorems": [
    "Verif.CL.Rev.Forgery.revocation_credentials_unforgeable"
   ],
   "note": "the forger hands the number in its blinded secret to the issuer in the clear (the code asks for no proof about it, and C225 shows that this matters); the value g_i it puts forward belongs to a place (gamma^i g for some i): a g_i of unknown logarithm is the hidden strong Diffie-Hellman assumption of the paper; the witness is not covered (C50: anybody computes it from public data)"
  },
  {
   "property": "C221",
   "status": "partial",
   "theorems": [
    "Verif.Sig.Handle.serialize_never_returns"
   ],
   "note": "false of the code: serialize calls itself (serialize_newtype_struct(.., &self)), so no amount of stack is enough, in any format; reading accepts every text"
  },
  {
   "property": "C222",
   "status": "proved",
   "theorems": [
    "Verif.Sharing.feldman_reveals_only_the_point",
    "Verif.Sharing.feldman_secret_is_a_logarithm"
   ],
   "note": "the coalition is chosen beforehand; g is any point; identifiers below 2^32 that differ in the field"
  },
  {
   "property": "C223",
   "status": "proved",
   "theorems": [
    "Verif.Sharing.pedersen_hides",
    "Verif.Sharing.pedersen_excludes_one"
   ],
   "note": "h is a multiple of g other than zero; the coalition is chosen beforehand"
  },
  {
   "property": "C224",
   "status": "partial",
   "theorems": [
    "Verif.BN.bn_shares_hide",
    "Verif.BN.bn_divisor_leaks"
   ],
   "note": "true for primes; false of the code for prime powers, which its documentation allows: it computes modulo the number, so share number d gives the secret modulo d for every d up to total that divides it"
  },
  {
   "property": "C225",
   "status": "partial",
   "theorems": [
    "Verif.CL.Rev.holder_chooses_context",
    "Verif.CL.Rev.chosen_context_proves"
   ],
   "note": "false of the code: the blinded revocation secret ur is never checked, so a holder that sends (m' - m2) h1 + vr' h2 is given the credential for the context m', which may be that of another, revoked credential; what remains true is C220, where the context is the issuer's and the secret is handed over in the clear"
  },
  {
   "property": "C226",
   "status": "proved",
   "theorems": [
    "Verif.Sharing.shamir_hides_from_adaptive",
    "Verif.Sharing.pedersen_hides_from_adaptive"
   ],
   "note": "h is a multiple of g other than zero; identifiers below 2^32 that differ in the field; for Feldman sharings only the fixed coalition is treated (C222): the simulation has to know it"
  },
  {
   "property": "C227",
   "status": "proved",
   "theorems": [
    "Verif.Sig.x25519_session_key_hidden",
    "Verif.Sig.secp256k1_session_key_hidden"
   ],
   "note": "one exchange and a passive eavesdropper; SHA-256 as a random function on strings of at most L bytes; for secp256k1 the private keys are loaded (the generator of the code hashes the random bytes with the same SHA-256); the pure build of secp256k1 does not hash the common point (C156)"
  },
  {
   "property": "C228",
   "status": "proved",
   "theorems": [
    "Verif.BBS.BlindHiding.blind_request_hides",
    "Verif.BBS.BlindHiding.blind_issuance_hides"
   ],
   "note": "h0 of the signer's key generates the group; the holder's code does not check this before it sends the request (the key is validated only when the reply is completed): BlindHiding.bad_key_reveals shows that with h0 = 0 the commitment tells a hidden message"
  },
  {
   "property": "C229",
   "status": "proved",
   "theorems": [
    "Verif.PoK.Hiding.pok_indistinguishable",
    "Verif.PoK.Hiding.pok_simulated",
    "Verif.PoK.Hiding.pok_request_hides"
   ],
   "note": "one proof; the blindings are uniform"
  },
  {
   "property": "C230",
   "status": "proved",
   "theorems": [
    "Verif.PS.ps_presentations_unlinkable",
    "Verif.BBS.bbs_presentations_unlinkable"
   ],
   "note": "the group of the signatures is generated by each of its non-zero elements; PS: the factor r is taken to be non-zero (amcl_wrapper draws it); all random numbers uniform and independent; nonces and shown messages are fixed beforehand"
  },
  {
   "property": "C231",
   "status": "proved",
   "theorems": [
    "Verif.PS.ps_anonymous",
    "Verif.BBS.bbs_anonymous"
   ],
   "note": "as C230, with questions chosen adaptively; an unfair question is not answered"
  },
  {
   "property": "C232",
   "status": "proved",
   "theorems": [
    "Verif.Groth.token_anonymous"
   ],
   "note": "the two groups are generated by the generators of the parameters; the factors rho_sig are taken to be non-zero and all random numbers uniform and independent; each token is made by a new token object; no signature of the chains has R = 0; the map of revealed attributes is hashed in one fixed order (for the order see C97)"
  },
  {
   "property": "C233",
   "status": "proved",
   "theorems": [
    "Verif.PS.ps_presentation_simulated"
   ],
   "note": "one presentation; the generator g is not neutral and the group of the signatures is generated by each non-zero element; the factor r is non-zero, all random numbers uniform and independent; the hash is a random function on strings up to a length that covers what is hashed"
  },
  {
   "property": "C234",
   "status": "proved",
   "theorems": [
    "Verif.BBS.bbs_issuance_unlinkable",
    "Verif.PS.ps_issuance_unlinkable"
   ],
   "note": "as C231; both requests are sent before the replies; the issuer's strategies are functions (a drawn strategy follows by averaging); the nonces of the requests are fixed beforehand; the hash is any function"
  },
  {
   "property": "C235",
   "status": "proved",
   "theorems": [
    "Verif.BBS.bbs_presentations_simulated",
    "Verif.PS.ps_presentations_simulated"
   ],
   "note": "BBS+: the field has at least three elements; PS: the generator g is not neutral; the group of the signatures is generated by each non-zero element; all random numbers uniform and independent; the hash is any function; the issuer's e and s are chosen such that signing succeeds (all but a few do)"
  },
  {
   "property": "C236",
   "status": "proved",
   "theorems": [
    "Verif.BBS.bbs_together_unlinkable"
   ],
   "note": "one presentation, no shared blindings between the credentials (with them hidden messages are proved equal, C76); the group of the signatures is generated by each non-zero element; all random numbers uniform and independent, the factors r1, r2 not zero"
  },
  {
   "property": "C237",
   "status": "proved",
   "theorems": [
    "Verif.BBS.bbs_linked_unlinkable"
   ],
   "note": "one presentation; each common blinding is drawn uniformly and used for one hidden value only, in this presentation only; the group of the signatures is generated by each non-zero element; all random numbers uniform and independent, the factors r1, r2 not zero"
  },
  {
   "property": "C238",
   "status": "proved",
   "theorems": [
    "Verif.BBS.bbs_reused_blinding_reveals",
    "Verif.BBS.bbs_shared_blinding_reveals_difference"
   ],
   "note": "the index of get_resp_for_message counts hidden messages only (C76)"
  }
 ]
}