{"id": "C01", "title": "Shamir reconstruction from any quorum", "statement": "For every scheme with 2 <= threshold <= limit, every non-zero secret and every choice of random coefficients, combining any list of at least `threshold` distinct shares produced by `split_secret`, in any order, returns exactly the secret - unless one of the combined shares has the value zero, in which case `combine_shares` returns ShareInvalidValue instead of a wrong secret.", "quantifier": "all fields whose from_usize is injective on 0..limit, all thresholds and limits, all secrets, all random polynomials, all sub-lists and orders of shares", "why_tests_cant": "a test samples a few polynomials, subsets and orders; the claim is over every subset and the zero-valued share is hit with negligible probability", "anchors": ["ursa_sharing/src/shamir.rs: Scheme::split_secret, Scheme::combine_shares, Scheme::interpolate", "ursa_sharing/src/lib.rs: Polynomial::new, Polynomial::evaluate"]}
{"id": "C02", "title": "Shamir secrecy below the threshold", "statement": "Any threshold-1 shares of a Shamir split carry no information: for every set of threshold-1 share values at distinct non-zero points and every candidate secret there is exactly one choice of random coefficients that produces those share values with that secret.", "quantifier": "all fields, thresholds, sets of threshold-1 distinct non-zero evaluation points, share values and candidate secrets", "why_tests_cant": "secrecy is a statement about all polynomials consistent with a view; no finite test observes it", "anchors": ["ursa_sharing/src/lib.rs: Polynomial::new, Polynomial::evaluate", "ursa_sharing/src/shamir.rs: Scheme::split_secret"]}
{"id": "C03", "title": "Shamir combine input validation", "statement": "`combine_shares` returns a value only if it was given at least `threshold` shares, no identifier is zero, no identifier occurs twice, every share value decodes and no decoded value is zero; otherwise it returns the documented error for the first violated condition, and it never panics.", "quantifier": "all thresholds and all finite lists of (identifier, bytes) shares", "why_tests_cant": "malformed inputs form an infinite space and the order of the checks matters", "anchors": ["ursa_sharing/src/shamir.rs: Scheme::combine_shares", "ursa_sharing/src/error.rs"]}
{"id": "C04", "title": "Shamir parameter validation", "statement": "`Scheme::new(threshold, limit)` succeeds exactly when 2 <= threshold <= limit, and `split_secret` succeeds exactly when the secret is non-zero; on success exactly `limit` shares are produced with the identifiers 1..limit, pairwise distinct and non-zero.", "quantifier": "all thresholds, limits below 2^32, and secrets", "why_tests_cant": "boundary behaviour for all pairs of parameters", "anchors": ["ursa_sharing/src/shamir.rs: Scheme::new, Scheme::split_secret, Share::new"]}
{"id": "C05", "title": "Feldman shares verify", "statement": "Every share produced by a Feldman split is accepted by `verify_share` with the published verifier, unless the share's value is zero (in which case it is rejected with ShareInvalidValue).", "quantifier": "all modules over a field, generators, secrets, polynomials, identifiers", "why_tests_cant": "universally quantified over polynomials and identifiers", "anchors": ["ursa_sharing/src/feldman.rs: Scheme::split_secret, Scheme::verify_share"]}
{"id": "C06", "title": "Feldman verified shares agree", "statement": "If `threshold` commitments are published (even by a dishonest dealer) then any two quorums of shares accepted by `verify_share` reconstruct the same secret, namely the discrete logarithm of the first commitment.", "quantifier": "all commitment vectors in the group generated by g, all lists of accepted shares", "why_tests_cant": "quantifies over dishonest dealers and all share subsets", "anchors": ["ursa_sharing/src/feldman.rs: Scheme::verify_share, Scheme::combine_shares"]}
{"id": "C07", "title": "Pedersen shares verify and bind", "statement": "Every (secret share, blinding share) pair of a Pedersen split verifies against the published commitments unless one of the two values is zero; and `verify_share` accepts a pair for identifier x only if s*g + b*h equals the commitment polynomial evaluated at x.", "quantifier": "all groups, generators g, h, secrets, blindings, polynomials, identifiers", "why_tests_cant": "universally quantified over polynomials and identifiers", "anchors": ["ursa_sharing/src/pedersen.rs: Scheme::split_secret, Scheme::verify_share"]}
{"id": "C08", "title": "Pedersen commitments are perfectly hiding", "statement": "When h is a non-zero multiple of g, for every commitment vector a Pedersen split publishes and every other secret polynomial there is exactly one blinding polynomial explaining the same commitments.", "quantifier": "all fields, cyclic groups, secret polynomials and blinding polynomials", "why_tests_cant": "information-theoretic statement about all openings", "anchors": ["ursa_sharing/src/pedersen.rs: Scheme::split_secret"]}
{"id": "C09", "title": "Share and verifier byte round trips", "statement": "Serialising a Shamir share, a Feldman verifier or a Pedersen verifier and parsing the bytes returns an equal object.", "quantifier": "all identifiers, values, generator and commitment lists", "why_tests_cant": "codec identity over all values and lengths; the existing tests do not exercise verifiers with distinct commitments", "anchors": ["ursa_sharing/src/shamir.rs: Share::to_bytes, TryFrom<&[u8]>", "ursa_sharing/src/feldman.rs: FeldmanVerifier", "ursa_sharing/src/pedersen.rs: PedersenVerifier"]}
{"id": "C10", "title": "Pure-Rust BigNumber modular inverse", "statement": "For every modulus n > 1 and every non-negative a, `inverse` returns Ok(x) with 0 <= x < n and a*x = 1 (mod n) when gcd(a,n)=1, and an error otherwise.", "quantifier": "all integers a and n", "why_tests_cant": "unbounded integers; loop termination and the sign invariant need induction", "anchors": ["libursa/src/bn/rust.rs: BigNumber::inverse"]}
{"id": "C11", "title": "Pure-Rust BigNumber modular arithmetic", "statement": "`modulus`, `mod_mul`, `mod_sub`, `mod_exp` (including negative exponents of invertible bases) and `mod_div` return the canonical representative in [0,n) of the corresponding operation in Z/nZ for n > 1.", "quantifier": "all integer operands, exponents and moduli n > 1", "why_tests_cant": "unbounded integers; sign handling", "anchors": ["libursa/src/bn/rust.rs: modulus, mod_mul, mod_sub, mod_exp, mod_div"]}
{"id": "C12", "title": "BigNumber byte, bit and comparison helpers", "statement": "For non-negative numbers, `from_bytes(to_bytes(a)) = a` with no leading zero byte in `to_bytes`; `set_bit`/`is_bit_set` read back exactly the bit that was set and leave all others alone; `rshift(n)` is division by 2^n.", "quantifier": "all non-negative integers and bit positions", "why_tests_cant": "unbounded integers", "anchors": ["libursa/src/bn/rust.rs: to_bytes, from_bytes, set_bit, is_bit_set, rshift"]}
{"id": "C13", "title": "libursa Shamir over BigNumber", "statement": "For every prime field modulus, threshold and total with 2 <= threshold <= total < field, and every secret smaller than the field, combining any >= threshold distinct shares gives the big-endian bytes of the secret without leading zeros, unless a share value is zero (then an error).", "quantifier": "all primes, thresholds, totals, secrets, polynomials, share subsets", "why_tests_cant": "as for C01, on the u8-identifier BigNumber implementation", "anchors": ["libursa/src/sharing/shamir.rs: split_secret, combine_shares"]}
{"id": "C14", "title": "libursa Shamir rejects malformed input", "statement": "`split_secret` and `combine_shares` of libursa report an error (never a panic or a value) for total < threshold, threshold < 2, empty secrets, too-large secrets, fewer than two shares, zero identifiers, zero values and duplicate identifiers.", "quantifier": "all argument combinations", "why_tests_cant": "boundary behaviour on all inputs", "anchors": ["libursa/src/sharing/shamir.rs: split_secret, combine_shares"]}
{"id": "C15", "title": "Four-square decomposition", "statement": "`four_squares(delta)` terminates for every i32: it returns an error exactly for negative delta, and otherwise four non-negative numbers whose squares sum to delta.", "quantifier": "all 32-bit integers", "why_tests_cant": "2^32 inputs with a nested search; needs Lagrange's theorem-style argument about which quadruples the loops visit", "anchors": ["libursa/src/cl/helpers.rs: four_squares, largest_square_less_than"]}
{"id": "C16", "title": "Predicate arithmetic", "statement": "For each of GE, LE, GT, LT the predicate holds of an attribute value iff the delta computed by the library is non-negative, and then delta' together with delta re-creates the attribute value (value = delta' +/- delta), whenever the i32 computation does not overflow.", "quantifier": "all predicate types, all i32 attribute values and bounds", "why_tests_cant": "2^65 combinations; overflow behaviour at the extremes", "anchors": ["libursa/src/cl/mod.rs: Predicate::get_delta, get_delta_prime, is_less", "libursa/src/cl/prover.rs: _init_ne_proof"]}
{"id": "C17", "title": "Key correctness proof is complete", "statement": "The key-correctness proof produced by `new_credential_def` is accepted by the prover's check for every schema, every key and every choice of randomness.", "quantifier": "all attribute sets, safe-prime-like moduli, secret exponents, nonces, hash functions", "why_tests_cant": "algebraic identity over all keys", "anchors": ["libursa/src/cl/issuer.rs: _new_credential_key_correctness_proof", "libursa/src/cl/prover.rs: _check_credential_key_correctness_proof"]}
{"id": "C18", "title": "Blinded-secrets proof is complete", "statement": "The correctness proof produced by `blind_credential_secrets` is accepted by the issuer for every set of hidden and committed attributes and all randomness.", "quantifier": "all attribute maps, keys, nonces and randomness", "why_tests_cant": "algebraic identity over all attribute sets", "anchors": ["libursa/src/cl/prover.rs: _new_blinded_credential_secrets_correctness_proof", "libursa/src/cl/issuer.rs: _check_blinded_credential_secrets_correctness_proof"]}
{"id": "C19", "title": "Issued primary credential satisfies the CL equation", "statement": "For all attribute values and randomness, after `sign_credential` and `process_credential_signature` the credential satisfies Z = A^e * S^v * Rctxt^m2 * prod R_i^{m_i} (mod n) over hidden and known attributes, and the signature correctness proof is accepted.", "quantifier": "all attribute maps, keys whose secret order is the group order, primes e, randomness", "why_tests_cant": "algebraic identity over all attribute sets, needs e^{-1} modulo the group order", "anchors": ["libursa/src/cl/issuer.rs: _sign_primary_credential, _new_signature_correctness_proof", "libursa/src/cl/prover.rs: process_credential_signature, _check_signature_correctness_proof"]}
{"id": "C20", "title": "Honest proof presentation verifies", "statement": "Every proof built by ProofBuilder from valid credentials for any list of sub-proof requests (revealed attributes, hidden attributes, any satisfied predicates, common attributes) is accepted by ProofVerifier::verify with the same requests and nonce.", "quantifier": "all credentials satisfying the CL equation, all requests, all randomness, all hash functions, any number of sub-proofs", "why_tests_cant": "end-to-end algebra across prover and verifier for all requests; tests fix one or two schemas", "anchors": ["libursa/src/cl/prover.rs: ProofBuilder", "libursa/src/cl/verifier.rs: ProofVerifier::verify, _verify_equality, _verify_ne_predicate", "libursa/src/cl/helpers.rs: calc_teq, calc_tne"]}
{"id": "C21", "title": "Verifier enforces the request shape", "statement": "ProofVerifier::verify returns Ok(true) only if the number of sub proofs matches, each sub proof reveals exactly the requested attributes and proves exactly the requested predicates, and the responses of every common attribute agree across sub proofs.", "quantifier": "all proofs and request lists, including adversarial ones", "why_tests_cant": "adversarial inputs; must hold for every proof object", "anchors": ["libursa/src/cl/verifier.rs: verify, _check_verify_params_consistency"]}
{"id": "C22", "title": "Predicate proof is bound to the credential attribute", "statement": "An accepted predicate sub proof is about the same attribute value as the equality proof: the verifier rejects a proof whose predicate response for the attribute differs from the equality-proof response.", "quantifier": "all proofs, including adversarial ones", "why_tests_cant": "only violated by adversarial provers", "anchors": ["libursa/src/cl/verifier.rs: _verify_ne_predicate, _verify_primary_proof"]}
{"id": "C23", "title": "Requested non-revocation is enforced", "statement": "If the verifier registers a sub-proof request together with a revocation key and registry, a proof without a non-revocation part is rejected.", "quantifier": "all proofs, including adversarial ones", "why_tests_cant": "only violated by adversarial provers", "anchors": ["libursa/src/cl/verifier.rs: add_sub_proof_request, verify"]}
{"id": "C24", "title": "Verifier instances are reusable", "statement": "Verifying a proof has no effect on later verifications by the same ProofVerifier instance: an honest proof is accepted whatever was verified before.", "quantifier": "all sequences of verify calls", "why_tests_cant": "history dependence", "anchors": ["libursa/src/cl/verifier.rs: ProofVerifier::verify (common_attributes)"]}
{"id": "C25", "title": "Accumulator matches the issued set", "statement": "After any sequence of issue, revoke and recover operations in which an index is revoked only while issued and issued/recovered only while not issued, the accumulator equals the sum of tails g'^(gamma^(max+1-i)) over exactly the currently issued indices.", "quantifier": "all registries sizes, issuance modes and operation histories", "why_tests_cant": "history property over unbounded sequences", "anchors": ["libursa/src/cl/issuer.rs: new_revocation_registry, _new_non_revocation_credential, revoke_credential, recovery_credential, update_revocation_registry"]}
{"id": "C26", "title": "Revocation is guarded against misuse", "statement": "Revoking an index that is not issued, or issuing/recovering one that already is, is rejected and leaves the accumulator unchanged.", "quantifier": "all histories", "why_tests_cant": "history property", "anchors": ["libursa/src/cl/issuer.rs: revoke_credential, recovery_credential"]}
{"id": "C27", "title": "Witness update equals witness re-computation", "statement": "Updating a holder's witness with the deltas published since it was created gives the same value as computing the witness from scratch against the current registry state.", "quantifier": "all registries, holders, and delta sequences", "why_tests_cant": "history property over unbounded sequences", "anchors": ["libursa/src/cl/mod.rs: Witness::new, Witness::update"]}
{"id": "C28", "title": "Non-revocation witness satisfies the accumulator equation", "statement": "A witness for an issued index satisfies e(g_i, acc) = z * e(g, omega) (and the other two checks made by the prover), and for an index that is not issued the equation fails.", "quantifier": "all registries, issued sets, indices", "why_tests_cant": "algebraic identity over all issued sets", "anchors": ["libursa/src/cl/mod.rs: Witness::new", "libursa/src/cl/prover.rs: _test_witness_signature"]}
{"id": "C29", "title": "Revocation deltas compose", "statement": "Merging consecutive registry deltas gives the delta whose application to any registry state equals applying both in order; deltas that are not consecutive are rejected without modification.", "quantifier": "all states and all pairs (and chains) of deltas", "why_tests_cant": "unbounded histories, interplay of issued/revoked sets", "anchors": ["libursa/src/cl/mod.rs: RevocationRegistryDelta::merge"]}
{"id": "C30", "title": "Tails generator yields exactly the needed tails", "statement": "The tails generator of a registry of size max yields the 2*max+1 elements g'^(gamma^i), i = 0..2*max, in order and then stops; the accessor returns the i-th of them.", "quantifier": "all registry sizes and call sequences", "why_tests_cant": "iterator state over all sizes", "anchors": ["libursa/src/cl/mod.rs: RevocationTailsGenerator, Tail, SimpleTailsAccessor"]}
{"id": "C31", "title": "Credential signature processing is atomic", "statement": "If process_credential_signature fails, the credential signature object is unchanged, so that it can be retried.", "quantifier": "all signatures and failure points", "why_tests_cant": "failure atomicity on every error path", "anchors": ["libursa/src/cl/prover.rs: process_credential_signature"]}
{"id": "C32", "title": "BLS signatures verify", "statement": "For every key and message a signature made with the signing key is accepted for the matching verification key, and a signature is accepted iff it equals H(m)^sk.", "quantifier": "all generators, keys, messages, signatures; any bilinear non-degenerate pairing", "why_tests_cant": "quantifies over all signatures, including adversarial ones", "anchors": ["libursa/src/bls/mod.rs: Bls::sign, Bls::verify"]}
{"id": "C33", "title": "BLS multi-signatures verify", "statement": "Combining signatures of one message by any list of signers gives a multi-signature accepted for the list of their verification keys, in any order; replacing any single signature by a different point makes it rejected.", "quantifier": "all lists of keys, any length", "why_tests_cant": "lists of any length", "anchors": ["libursa/src/bls/mod.rs: MultiSignature::new, Bls::verify_multi_sig"]}
{"id": "C34", "title": "BLS multi-signature requires signers", "statement": "A multi-signature is never accepted for an empty list of verification keys.", "quantifier": "all messages and signatures", "why_tests_cant": "edge case of an infinite family", "anchors": ["libursa/src/bls/mod.rs: Bls::verify_multi_sig"]}
{"id": "C35", "title": "BLS proof of possession", "statement": "`verify_proof_of_posession` accepts exactly H(verkey bytes)^sk for the secret key of the verification key.", "quantifier": "all keys and proofs", "why_tests_cant": "quantifies over adversarial proofs", "anchors": ["libursa/src/bls/mod.rs: ProofOfPossession::new, Bls::verify_proof_of_posession"]}
{"id": "C36", "title": "Easy encryption round trip", "statement": "For every cipher, key, nonce, associated data and plaintext, decrypt_easy(aad, encrypt_easy(aad, pt)) = pt.", "quantifier": "all ciphers, keys, nonces, aad and plaintexts of any length including empty", "why_tests_cant": "all lengths", "anchors": ["libursa/src/encryption/symm/mod.rs: Encryptor", "libursa/src/encryption/symm/aescbc.rs", "libursa/src/encryption/symm/aesgcm.rs", "libursa/src/encryption/symm/chacha20poly1305.rs", "libursa/src/encryption/symm/xchacha20poly1305.rs"]}
{"id": "C37", "title": "Short or malformed ciphertexts are rejected", "statement": "decrypt_easy returns an error, and does not panic, for every input shorter than nonce+tag, for every cipher.", "quantifier": "all byte strings", "why_tests_cant": "all lengths", "anchors": ["libursa/src/encryption/symm/mod.rs: Encryptor::decrypt_easy"]}
{"id": "C38", "title": "Associated data is authenticated (AES-CBC-HMAC)", "statement": "With an HMAC that is injective on its input, decrypting a ciphertext with associated data different from the one used at encryption is rejected.", "quantifier": "all keys, nonces, aad pairs, plaintexts", "why_tests_cant": "adversarial inputs", "anchors": ["libursa/src/encryption/symm/aescbc.rs: encrypt, decrypt"]}
{"id": "C39", "title": "BBS+ signatures verify", "statement": "For every key pair of message_count >= 1 and every list of message_count messages, the signature made by `Signature::new` verifies (given x+e != 0 and the signature components are non-zero), and verify accepts exactly the triples with e(A, w + e*g2) = e(g1 + s*h0 + sum m_i*h_i, g2).", "quantifier": "all keys, message lists, randomness", "why_tests_cant": "all message counts", "anchors": ["libzmix/bbs/src/signature.rs: Signature::new, Signature::verify, get_b"]}
{"id": "C40", "title": "BBS+ blind issuance equals direct issuance", "statement": "Unblinding a blind signature on a commitment to the hidden messages and the revealed rest yields a valid signature on the full message list, for every split of the messages into hidden and known, and the issuer's check of the holder's context accepts it.", "quantifier": "all keys, partitions of message indices, randomness", "why_tests_cant": "all partitions", "anchors": ["libzmix/bbs/src/signature.rs: BlindSignature", "libzmix/bbs/src/prover.rs: new_blind_signature_context, complete_signature", "libzmix/bbs/src/lib.rs: BlindSignatureContext::verify", "libzmix/bbs/src/issuer.rs: blind_sign"]}
{"id": "C41", "title": "BBS+ selective disclosure completeness", "statement": "A proof of knowledge built from a valid signature for any choice of revealed messages verifies against the revealed messages, for every challenge, and prover and verifier compute the same challenge bytes.", "quantifier": "all keys, messages, revealed sets, randomness, challenges", "why_tests_cant": "all partitions of indices", "anchors": ["libzmix/bbs/src/pok_sig.rs: PoKOfSignature::init, gen_proof, PoKOfSignatureProof::verify, get_bytes_for_challenge", "libzmix/bbs/src/verifier.rs: verify_signature_pok"]}
{"id": "C42", "title": "BBS+ disclosure proofs are special sound", "statement": "Two accepting BBS+ proofs with the same commitments, the same revealed messages and different challenges yield a valid BBS+ signature on a message vector that agrees with the revealed messages.", "quantifier": "all proofs, keys, challenges", "why_tests_cant": "adversarial proofs", "anchors": ["libzmix/bbs/src/pok_sig.rs: PoKOfSignatureProof::verify"]}
{"id": "C43", "title": "BBS+ verifier enforces the requested disclosure", "statement": "verify_signature_pok succeeds only if the proof reveals exactly the message indices the verifier asked for.", "quantifier": "all proofs and requests", "why_tests_cant": "adversarial provers", "anchors": ["libzmix/bbs/src/verifier.rs: verify_signature_pok"]}
{"id": "C44", "title": "BBS+ revealed messages are bound by the challenge", "statement": "A prover cannot make the verifier accept a revealed message that differs from the signed one while knowing only signatures on other messages: the Fiat-Shamir challenge input determines the revealed messages.", "quantifier": "all proofs", "why_tests_cant": "adversarial provers", "anchors": ["libzmix/bbs/src/pok_sig.rs: get_bytes_for_challenge", "libzmix/bbs/src/verifier.rs: verify_signature_pok"]}
{"id": "C45", "title": "BBS+ wire formats round trip", "statement": "PublicKey, ProofG1, PoKOfSignatureProof, SignatureProof, BlindSignatureContext and ProofRequest survive to_bytes/from_bytes in both compressed and uncompressed form.", "quantifier": "all objects with fewer than 2^32 elements", "why_tests_cant": "all lengths", "anchors": ["libzmix/bbs/src/keys.rs: PublicKey::to_bytes, from_bytes", "libzmix/bbs/src/pok_vc.rs: ProofG1::to_bytes, from_bytes", "libzmix/bbs/src/lib.rs: SignatureProof, BlindSignatureContext, ProofRequest, revealed_to_bitvector, bitvector_to_revealed"]}
{"id": "C46", "title": "PS signatures verify, direct and blind", "statement": "Pointcheval-Sanders signatures verify for every key, message list and non-degenerate randomness; unblinding a blind signature gives a valid signature on hidden followed by known messages; the two blind signing routines agree.", "quantifier": "all keys, message lists, splits, randomness", "why_tests_cant": "all lengths", "anchors": ["libzmix/src/signatures/ps/signature.rs", "libzmix/src/signatures/ps/blind_signature.rs"]}
{"id": "C47", "title": "PS proof of knowledge completeness and special soundness", "statement": "PS proofs of knowledge verify for every revealed subset, and two accepting transcripts with different challenges yield a valid PS signature on messages that agree with the revealed ones.", "quantifier": "all keys, messages, subsets, randomness, adversarial proofs", "why_tests_cant": "adversarial proofs", "anchors": ["libzmix/src/signatures/ps/pok_sig.rs"]}
{"id": "C48", "title": "Vector-commitment proofs of knowledge", "statement": "The generic proof of knowledge of an opening of a vector commitment is complete and special sound, and rejects a base list of a different length with an error.", "quantifier": "all groups, base vectors, secrets, challenges", "why_tests_cant": "all lengths, adversarial proofs", "anchors": ["libzmix/src/commitments/pok_vc.rs: impl_PoK_VC", "libzmix/bbs/src/pok_vc.rs"]}
{"id": "C49", "title": "CL bit and byte helpers", "statement": "The big-integer OR used when drawing v'' is the bitwise or; the issuer's random v'' always has exactly 2724 bits; the u32 used in the credential context is encoded big-endian; two attribute strings get the same encoding only if both are the same number or their hashes collide.", "quantifier": "all non-negative integers / random values / u32 / strings", "why_tests_cant": "needs all bit patterns and all strings", "anchors": ["libursa/src/cl/helpers.rs: bitwise_or_big_int, transform_u32_to_array_of_u8, encode_attribute, generate_v_prime_prime"]}
{"id": "C50", "title": "Revoked holders cannot rebuild a witness", "statement": "From the public data (accumulator state, tails) a holder whose index is not in the accumulator cannot compute a witness passing the accumulator check.", "quantifier": "all registry sizes, all accumulated sets, all indices outside the set", "why_tests_cant": "a test would need to enumerate the adversary's possible computations", "anchors": ["libursa/src/cl/mod.rs: RevocationTailsGenerator, Witness", "libursa/src/cl/prover.rs: _test_witness_signature"]}
{"id": "C51", "title": "Non-revocation proofs are complete and special sound", "statement": "A holder whose revocation credential and witness are authentic for the current accumulator always convinces the verifier; anyone able to answer two different challenges for the same commitments holds a credential of the issuer whose index is in the accumulator.", "quantifier": "all credentials, accumulators, randomness, challenges; all (adversarial) proofs", "why_tests_cant": "unbounded randomness and adversarial transcripts; soundness is a statement about all provers", "anchors": ["libursa/src/cl/helpers.rs: create_tau_list_values, create_tau_list_expected_values", "libursa/src/cl/prover.rs: _init_non_revocation_proof, _finalize_non_revocation_proof", "libursa/src/cl/verifier.rs: _verify_non_revocation_proof"]}
{"id": "C52", "title": "Presentations cannot be forged", "statement": "No proof is accepted by ProofVerifier::verify unless its maker holds credentials issued under the requested public keys for the revealed values.", "quantifier": "all public keys, request lists, common attributes, revealed values and nonces; any prover knowing only public data", "why_tests_cant": "a forged proof is a particular algebraic construction, random tests never hit it; absence of forgeries is a statement about every proof object", "anchors": ["libursa/src/cl/verifier.rs: ProofVerifier::verify, _verify_equality, _verify_ne_predicate"]}
{"id": "C53", "title": "Non-revocation is tied to the credential", "statement": "An accepted non-revocation part belongs to the same credential (same context m2) as the primary part of the sub proof.", "quantifier": "all credentials, revocation credentials of other holders, registries and nonces", "why_tests_cant": "needs a relation between two responses for every pair of credentials", "anchors": ["libursa/src/cl/verifier.rs: verify, _verify_non_revocation_proof", "libursa/src/cl/prover.rs: add_sub_proof_request"]}
{"id": "C54", "title": "Certified attributes cannot be altered by the holder", "statement": "A credential issued by `sign_credential` for a known attribute value v can only be presented by the holder with that value; in particular a request that declares an attribute as hidden which the issuer also certifies is rejected.", "quantifier": "all keys, attribute values v, offsets, hash functions and randomness", "why_tests_cant": "The violation needs an adversarial blinded request with an overlapping name and holds for every value; tests only exercise well-formed requests.", "anchors": ["libursa/src/cl/issuer.rs:sign_credential", "libursa/src/cl/issuer.rs:_check_blinded_credential_secrets_correctness_proof", "libursa/src/cl/prover.rs:process_credential_signature"]}
{"id": "C55", "title": "Key correctness proof covers every generator", "statement": "An accepted key correctness proof proves knowledge of the discrete logarithm of Z and of every attribute generator R_k of the public key to the base S.", "quantifier": "all public keys and proofs accepted by the prover's check", "why_tests_cant": "A statement about all accepted proofs, including those of a malicious issuer.", "anchors": ["libursa/src/cl/prover.rs:_check_credential_key_correctness_proof", "libursa/src/cl/issuer.rs:_new_credential_key_correctness_proof"]}
{"id": "C56", "title": "Issuer does not crash on malformed requests", "statement": "`sign_credential` returns an error (does not panic) for every blinded-secrets request, well-formed or not.", "quantifier": "all requests a holder can send", "why_tests_cant": "Malformed requests are an unbounded set of inputs; unit tests never omit map entries.", "anchors": ["libursa/src/cl/issuer.rs:_check_blinded_credential_secrets_correctness_proof"]}
{"id": "C57", "title": "Credential contexts are distinct", "statement": "The credential context m2 signed into a credential distinguishes credentials without revocation from those with a revocation index, distinguishes indices, and distinguishes provers, unless hashes collide.", "quantifier": "all prover ids and all optional u32 indices", "why_tests_cant": "Universally quantified over the u32 domain.", "anchors": ["libursa/src/cl/issuer.rs:_gen_credential_context"]}
{"id": "C58", "title": "Blinding proof hides the blinding factor", "statement": "The correctness proof sent with blinded secrets hides the holder's blinding exponent v' statistically: the mask is long enough for the secret and challenge.", "quantifier": "all randomness and all attribute maps", "why_tests_cant": "A statement about every run and about information content of a message, not about one output.", "anchors": ["libursa/src/cl/prover.rs:_new_blinded_credential_secrets_correctness_proof", "libursa/src/cl/constants.rs"]}
{"id": "C59", "title": "Holder's check is sound against a malicious issuer", "statement": "If `process_credential_signature` succeeds, the resulting credential satisfies the CL equation for the holder's attributes and public key, whatever the issuer sent.", "quantifier": "all signatures, proofs, nonces and attribute maps accepted by the check", "why_tests_cant": "Quantifies over adversarial inputs.", "anchors": ["libursa/src/cl/prover.rs:process_credential_signature", "libursa/src/cl/prover.rs:_check_signature_correctness_proof"]}
{"id": "C60", "title": "Revocable issuance accepted exactly for issued indices", "statement": "A credential made by `sign_credential_with_revoc` is accepted by `process_credential_signature` with the holder's witness exactly if the credential's index is in the currently issued set, after every history of the registry.", "quantifier": "all histories of issue/revoke/recover/update operations, all attribute maps and randomness", "why_tests_cant": "Histories are unbounded.", "anchors": ["libursa/src/cl/issuer.rs:sign_credential_with_revoc", "libursa/src/cl/prover.rs:process_credential_signature"]}
{"id": "C61", "title": "Nonce binding", "statement": "A proof accepted for one nonce is not accepted by the same verifier for a different nonce unless the two hashed byte strings collide.", "quantifier": "all verifiers, proof objects and pairs of different nonces", "why_tests_cant": "ranges over all proof objects, also malformed ones", "anchors": ["libursa/src/cl/verifier.rs: ProofVerifier::verify", "libursa/src/cl/helpers.rs: get_hash_as_int"]}
{"id": "C62", "title": "Credentials with committed attributes are presentable", "statement": "A credential with an attribute given to the issuer only as a commitment, accepted by process_credential_signature, can be presented and is accepted by the verifier.", "quantifier": "all such credentials, requests, randomness and nonces", "why_tests_cant": "quantifies over all keys, attribute values and randomness", "anchors": ["libursa/src/cl/prover.rs: _finalize_eq_proof, _init_eq_proof", "libursa/src/cl/verifier.rs: _verify_equality", "libursa/src/cl/types: CredentialValue::Commitment"]}
{"id": "C63", "title": "Equality proofs are special sound", "statement": "Two equality proofs with the same blinded signature A' and the same revealed values whose recomputed commitments agree under different challenges satisfy the CL equation (raised to the difference of challenges), with the revealed attributes entering with exactly the revealed values.", "quantifier": "all keys of invertible numbers, proof pairs, challenges and requests", "why_tests_cant": "soundness is about all provers, not about runs of the honest one", "anchors": ["libursa/src/cl/verifier.rs: _verify_equality", "libursa/src/cl/helpers.rs: calc_teq"]}
{"id": "C64", "title": "Plain BigNumber arithmetic", "statement": "`div` returns the quotient rounded towards zero and fails exactly for divisor 0; `gcd` is the greatest common divisor; `exp` returns a^e for every exponent of at most 64 bits and fails for others; `set_negative` keeps the magnitude and sets the sign.", "quantifier": "all integers", "why_tests_cant": "unbounded integers of both signs", "anchors": ["libursa/src/bn/rust.rs: div, gcd, exp, set_negative"]}
{"id": "C65", "title": "signatures::bls single signatures and byte interface", "statement": "A signature is accepted for a public key exactly if it is sk\u00b7H(context\u2016message); a key pair produced by `keypair` with any option signs messages that its public key verifies, and is re-derived from its secret key.", "quantifier": "all keys, seeds, messages, contexts, adversarial signatures; both group assignments", "why_tests_cant": "ranges over adversarial signatures", "anchors": ["libursa/src/signatures/bls.rs: Signature::{new,verify}, Bls::{keypair,sign,verify}"]}
{"id": "C66", "title": "Aggregate signatures with rogue-key mitigation", "statement": "For every list of signers, signatures made with `new_with_rk_mitigation` aggregate to one accepted for the aggregated public key; the aggregated key accepts only the combination weighted by the hash coefficients of all keys.", "quantifier": "all lists of keys of any length, messages, contexts, adversarial signatures", "why_tests_cant": "lists of any length", "anchors": ["libursa/src/signatures/bls.rs: AggregatedPublicKey, AggregatedSignature, Signature::new_with_rk_mitigation"]}
{"id": "C67", "title": "Multi-signatures without mitigation prove participation", "statement": "A multi-signature accepted for a list of verification keys cannot be made without a contribution of each key's owner.", "quantifier": "all key lists, messages", "why_tests_cant": "adversarially chosen keys", "anchors": ["libursa/src/bls/mod.rs: Bls::verify_multi_sig", "libursa/src/signatures/bls.rs: AggregatedSignature::verify_no_rk"]}
{"id": "C68", "title": "Multi-message verification", "statement": "`verify_multi` accepts exactly when the messages hash to pairwise distinct points and the signature is the sum of the individual signatures.", "quantifier": "all lists of (message, key), adversarial signatures", "why_tests_cant": "lists of any length", "anchors": ["libursa/src/signatures/bls.rs: Signature::verify_multi"]}
{"id": "C69", "title": "Batch verification is complete and sound", "statement": "`batch_verify` accepts every batch of valid signatures whatever exponents are drawn; if any member is invalid, at most one value of its random exponent leads to acceptance.", "quantifier": "all batches of any length and all exponents", "why_tests_cant": "probabilistic soundness over all exponents", "anchors": ["libursa/src/signatures/bls.rs: Signature::batch_verify, AggregatedSignature::batch_verify"]}
{"id": "C70", "title": "BLS domain separation", "statement": "Signatures made for one context are not valid for another; in particular a message signature is never a proof of possession.", "quantifier": "all contexts and messages", "why_tests_cant": "ranges over all byte strings", "anchors": ["libursa/src/signatures/bls.rs: hash_msg, hash_key, hash_to_point"]}
{"id": "C71", "title": "No third pair decrypts under AES-CBC-HMAC", "statement": "An associated-data/ciphertext pair accepted by decrypt_easy of AES-CBC-HMAC was produced by encrypt_easy with that associated data, unless the MAC collides on two different inputs.", "quantifier": "all keys, nonces, associated data, plaintexts and modified pairs", "why_tests_cant": "adversarial inputs", "anchors": ["libursa/src/encryption/symm/aescbc.rs: encrypt, decrypt"]}
{"id": "C72", "title": "Stream encryption equals slice encryption", "statement": "encrypt_buffer and decrypt_buffer give the result of encrypt_easy and decrypt_easy on the concatenation of whatever pieces the reader delivers, and an error if reading or writing fails.", "quantifier": "all ciphers, keys, nonces, associated data, all ways the reader splits its data, failing readers and writers", "why_tests_cant": "every chunking of the stream", "anchors": ["libursa/src/encryption/symm/mod.rs: encrypt_buffer, decrypt_buffer, read_buffer"]}
{"id": "C73", "title": "Cipher selection by name and size", "statement": "A cipher name parses to the cipher that displays as it and to no other; gen_encryptor succeeds exactly on keys whose size is_valid_keysize accepts; explicit nonces are accepted exactly if is_valid_noncesize accepts their size.", "quantifier": "all strings, keys, nonces and ciphers", "why_tests_cant": "all strings and lengths", "anchors": ["libursa/src/encryption/symm/mod.rs: EncryptorType"]}
{"id": "C74", "title": "Serialized encryptors", "statement": "An encryptor deserializes from what it was serialized to, and malformed input is rejected with an error, without a panic.", "quantifier": "all keys and all strings", "why_tests_cant": "all strings", "anchors": ["libursa/src/encryption/symm/mod.rs: serialize_impl"]}
{"id": "C75", "title": "BBS+ signing refuses message lists that do not match the key", "statement": "`Signature::new` signs only lists with exactly one message per message generator of the public key; a signature never verifies for a list that was not signed by the issuer.", "quantifier": "all keys, message lists of any length", "why_tests_cant": "all lengths; silent zip truncation", "anchors": ["libzmix/bbs/src/signature.rs: Signature::new, get_b, Signature::verify"]}
{"id": "C76", "title": "BBS+ responses identify messages", "statement": "`get_resp_for_message(i)` of a proof is the response for message i; two accepted proofs whose responses for a message are equal under two different challenges hide the same message there (the mechanism for proving equality of hidden attributes).", "quantifier": "all proofs, keys, message partitions, challenges", "why_tests_cant": "adversarial provers, all partitions", "anchors": ["libzmix/bbs/src/pok_sig.rs: PoKOfSignatureProof::get_resp_for_message"]}
{"id": "C77", "title": "BBS+ untrusted input never panics", "statement": "Parsing any bytes as a key, signature, proof, proof answer, request or blind context, and calling the issuer, holder or verifier functions with any indices, gives a value or an error and never panics.", "quantifier": "all byte strings and indices", "why_tests_cant": "all byte strings", "anchors": ["libzmix/bbs/src/keys.rs: PublicKey::from_bytes", "libzmix/bbs/src/pok_sig.rs: from_bytes, get_resp_for_message", "libzmix/bbs/src/lib.rs: SignatureProof, ProofRequest, BlindSignatureContext", "libzmix/bbs/src/prover.rs: new_blind_signature_context", "libzmix/bbs/src/issuer.rs: blind_sign"]}
{"id": "C78", "title": "BBS+ deterministic public keys", "statement": "The full key derived from a short key depends only on the short key and the message count, has exactly that many generators and the short key as commitment; different keys, counts or positions are hashed from different inputs; a count of zero and a zero secret are refused; key generation gives w = x g2.", "quantifier": "all keys and message counts", "why_tests_cant": "all counts; injectivity of an encoding", "anchors": ["libzmix/bbs/src/keys.rs: DeterministicPublicKey::to_public_key, DeterministicPublicKey::new, generate"]}
{"id": "C79", "title": "BBS+ proof requests name existing messages", "statement": "`new_proof_request` answers an error exactly if some requested index exceeds the key's message count, and otherwise a request for exactly the given set of indices.", "quantifier": "all keys and index lists", "why_tests_cant": "all lists", "anchors": ["libzmix/bbs/src/verifier.rs: new_proof_request"]}
{"id": "C80", "title": "BBS+ presentations are unlinkable", "statement": "For two signatures under the same key whose messages agree on the revealed positions, the set of possible presentations (over the prover's randomness) for a given challenge is the same, so a presentation reveals nothing but the revealed messages.", "quantifier": "all keys, signatures, message lists, revealed subsets, challenges", "why_tests_cant": "statement about all randomness", "anchors": ["libzmix/bbs/src/pok_sig.rs: PoKOfSignature::init, gen_proof"]}
{"id": "C81", "title": "BBS+ bytes that cannot be parsed are never accepted", "statement": "The `From<Box<[u8]>>` conversions replace bytes that cannot be parsed by default objects; no default key, signature, proof, context or answer is ever accepted by a verifying function.", "quantifier": "all byte strings", "why_tests_cant": "all byte strings", "anchors": ["libzmix/bbs/src/macros.rs: try_from_impl", "libzmix/bbs/src/lib.rs: SignatureProof default, BlindSignatureContext default"]}
{"id": "C82", "title": "PS revealed messages are bound by the challenge", "statement": "Two accepted PS proofs with the same challenge bytes and the same revealed indices disclose the same revealed part; changing a single revealed value of an accepted proof makes it fail.", "quantifier": "all keys, proofs, revealed maps, challenges", "why_tests_cant": "adversarial provers", "anchors": ["libzmix/src/signatures/ps/pok_sig.rs: PoKOfSignatureProof::verify, get_bytes_for_challenge"]}
{"id": "C83", "title": "PS responses identify messages", "statement": "`get_resp_for_message(i)` of a PS proof is the response for message i, and equal responses under two challenges in two proofs mean equal hidden messages.", "quantifier": "all proofs, keys, message partitions, challenges", "why_tests_cant": "adversarial provers, all partitions", "anchors": ["libzmix/src/signatures/ps/pok_sig.rs: get_resp_for_message"]}
{"id": "C84", "title": "PS proofs are unlinkable", "statement": "Any two signatures under one key whose messages agree at the revealed indices have the same set of possible proofs over the prover's random values.", "quantifier": "all keys, signatures, messages, revealed sets, challenges", "why_tests_cant": "statement about all randomness", "anchors": ["libzmix/src/signatures/ps/pok_sig.rs: PoKOfSignature::init, gen_proof"]}
{"id": "C85", "title": "PS wire formats round trip", "statement": "Bytes produced for the proof part of a PS proof parse back to it; the two public generators are hashed from different strings.", "quantifier": "all proofs, all labels", "why_tests_cant": "all values; the parser is instantiated by a macro with a size constant", "anchors": ["libzmix/src/signatures/ps/pok_sig.rs: impl_PoK_VC! (ProofOtherGroup)", "libzmix/src/commitments/pok_vc.rs: from_bytes", "libzmix/src/signatures/ps/keys.rs: Params::new"]}
{"id": "C86", "title": "PS verification never panics on untrusted proofs", "statement": "Verifying a PS proof with any revealed map gives a verdict or an error, never a panic.", "quantifier": "all proofs, keys and revealed maps", "why_tests_cant": "all inputs", "anchors": ["libzmix/src/signatures/ps/pok_sig.rs: PoKOfSignatureProof::verify"]}
{"id": "C87", "title": "Groth signatures verify and randomise", "statement": "A signature made by `Groth1Sig::new`/`Groth2Sig::new` verifies under the signer's key for the signed messages; `verify` answers yes exactly for solutions of the published equations; `randomize` with a non-zero value never changes what is accepted, and reaches every other signature of the key on the same messages; the proof of knowledge of the signing key is complete and sound; setup hashes distinct strings.", "quantifier": "all keys, parameters, message lists, random values, both schemes", "why_tests_cant": "all random values and message counts", "anchors": ["libzmix/src/signatures/delg_cred_cdd/groth_sig.rs: setup, keygen, Groth1Sig::new, randomize, verify, initiate_proof_of_knowledge_of_sigkey"]}
{"id": "C88", "title": "A Groth signature is accepted only for the list that was signed", "statement": "If `verify` accepts a signature and key for two lists of messages, the lists are equal.", "quantifier": "all signatures, keys, pairs of message lists", "why_tests_cant": "adversarial message lists", "anchors": ["libzmix/src/signatures/delg_cred_cdd/groth_sig.rs: Groth1Sig::verify, Groth2Sig::verify"]}
{"id": "C89", "title": "Groth batch verification agrees with plain verification", "statement": "`verify_batch` accepts whatever `verify` accepts, for every value it draws; what `verify` refuses it accepts for at most as many values of its draw as there are messages.", "quantifier": "all signatures, keys, messages, draws, both schemes", "why_tests_cant": "probability over the draw; adversarial signatures", "anchors": ["libzmix/src/signatures/delg_cred_cdd/groth_sig.rs: verify_batch, prepare_for_pairing_checks"]}
{"id": "C90", "title": "Delegation links bind delegatee and delegator", "statement": "A link made by `delegate` is accepted for its delegatee and delegator, is for the next level and needs room for the key; a link shown for another delegatee is refused; an accepted link carries a valid signature of the delegator on its attributes.", "quantifier": "all links, keys, levels, attributes", "why_tests_cant": "adversarial links", "anchors": ["libzmix/src/signatures/delg_cred_cdd/issuer.rs: CredLinkOdd, CredLinkEven, EvenLevelIssuer, OddLevelIssuer, RootIssuer"]}
{"id": "C91", "title": "Chain verification checks every link up to the root", "statement": "`verify_delegations` accepts every honestly made chain of any length; what it accepts (for more draws than a link has attributes) has every link at its level, signed by the key before it, from the root key on.", "quantifier": "all chains, key lists, draws; chains of any length", "why_tests_cant": "unbounded length, adversarial chains", "anchors": ["libzmix/src/signatures/delg_cred_cdd/issuer.rs: CredChain::verify_delegations, validate, verify_last_odd_delegation"]}
{"id": "C92", "title": "Batched chain verification accepts only valid chains", "statement": "`verify_delegations_batched` accepts exactly the chains `verify_delegations` accepts, up to a negligible set of draws.", "quantifier": "all chains, draws", "why_tests_cant": "adversarial chains", "anchors": ["libzmix/src/signatures/delg_cred_cdd/issuer.rs: CredChain::verify_delegations_batched", "libzmix/src/signatures/delg_cred_cdd/groth_sig.rs: Groth2Sig::prepare_for_pairing_checks"]}
{"id": "C93", "title": "Verifying untrusted links and chains does not crash", "statement": "Verifying or extending with any received link or chain returns a verdict or an error.", "quantifier": "all links, signatures and chains", "why_tests_cant": "all inputs", "anchors": ["libzmix/src/signatures/delg_cred_cdd/issuer.rs: has_verkey, extend_with_odd, verify_delegations", "libzmix/src/signatures/delg_cred_cdd/groth_sig.rs: verify_batch"]}
{"id": "C94", "title": "Chains grow level by level and truncate to prefixes", "statement": "In a chain made by the extend functions the odd links have levels 1,3,5,\u2026 and the even ones 2,4,6,\u2026; truncating to k gives the first k links, and the truncation of a valid chain is valid for the first keys.", "quantifier": "all sequences of extensions, all k", "why_tests_cant": "all histories", "anchors": ["libzmix/src/signatures/delg_cred_cdd/issuer.rs: extend_with_odd, extend_with_even, get_truncated, get_odd_link"]}
{"id": "C95", "title": "Attribute tokens of honest holders are accepted", "statement": "For every valid chain of one level or more whose last secret key the holder has, every choice of attributes to reveal, all random values (non-zero signature factors) and every challenge: commitment and response are made and the verifier reconstructs exactly the commitment, over shared generators.", "quantifier": "all chains of any length, attribute sets, random values, challenges", "why_tests_cant": "unbounded length; all random values", "anchors": ["libzmix/src/signatures/delg_cred_cdd/attribute_token.rs: AttributeToken::commitment, response, reconstruct_commitment"]}
{"id": "C96", "title": "Attribute tokens are sound", "statement": "Two accepted responses to different challenges for one commitment give a valid chain from the root key of the claimed length with the revealed attributes, and the secret key of its last member; nothing else that the token shows is unproved.", "quantifier": "all adversarial tokens and responses of any length", "why_tests_cant": "adversarial tokens", "anchors": ["libzmix/src/signatures/delg_cred_cdd/attribute_token.rs: reconstruct_commitment, AttributeTokenComm::validate"]}
{"id": "C97", "title": "The challenge binds the commitment", "statement": "The challenge computed from a commitment depends on all of the commitment and on nothing else: prover and verifier holding the same commitment compute the same challenge, and another commitment gives another challenge up to hash collisions.", "quantifier": "all commitments, map iteration orders, hash functions", "why_tests_cant": "all iteration orders of the maps; all commitments", "anchors": ["libzmix/src/signatures/delg_cred_cdd/attribute_token.rs: AttributeTokenComm::to_bytes, gen_challenge"]}
{"id": "C98", "title": "Reconstructing from an untrusted token does not crash", "statement": "`reconstruct_commitment` returns a commitment or an error for every token and response received.", "quantifier": "all tokens and responses", "why_tests_cant": "all inputs", "anchors": ["libzmix/src/signatures/delg_cred_cdd/attribute_token.rs: reconstruct_commitment"]}
{"id": "C99", "title": "Precomputation does not change results", "statement": "Commitment and reconstruction with precomputed values give what they give without them, for all inputs, including errors.", "quantifier": "all inputs", "why_tests_cant": "all inputs", "anchors": ["libzmix/src/signatures/delg_cred_cdd/attribute_token.rs: commitment_with_precomputation, reconstruct_commitment_with_precomputed_vals, PrecompOnSetupParams, PrecompForCommitmentReconstitution"]}
{"id": "C100", "title": "Tokens disclose only the revealed attributes", "statement": "For a given challenge, the commitments and responses of any two chains with the same shape and the same revealed attributes are the same up to a change of the random values.", "quantifier": "all pairs of chains, challenges, random values", "why_tests_cant": "probability distributions; all chains", "anchors": ["libzmix/src/signatures/delg_cred_cdd/attribute_token.rs: commitment, response"]}
{"id": "C101", "title": "A token object answers one challenge", "statement": "A token object cannot be used to answer two challenges with the same blindings: a second commitment from the object cannot be answered, nor a second response be made from the first.", "quantifier": "all histories of calls on one token object", "why_tests_cant": "all histories", "anchors": ["libzmix/src/signatures/delg_cred_cdd/attribute_token.rs: commitment, response"]}
{"id": "C102", "title": "Verifiable encryption: decryption inverts encryption", "statement": "For every key pair made from odd primes, every list of at most as many messages as the key is for, all random values and every label: encryption succeeds and decryption with the same label returns the messages (reduced modulo n, so unchanged if they are below n); more messages are refused.", "quantifier": "all keys, message lists of any length, labels, random values, hash functions", "why_tests_cant": "unbounded lists; all random values", "anchors": ["libzmix/src/verifiable_encryption/cs_verifiable_encryption.rs: CSKeypair::new, encrypt, decrypt"]}
{"id": "C103", "title": "Verifiable encryption: the label is bound", "statement": "A ciphertext made under one label does not decrypt under another one, up to hash coincidences.", "quantifier": "all ciphertexts and pairs of labels", "why_tests_cant": "all label pairs and hash functions", "anchors": ["libzmix/src/verifiable_encryption/cs_verifiable_encryption.rs: encrypt, decrypt, hash"]}
{"id": "C104", "title": "Verifiable encryption: honest proofs are accepted", "statement": "For all messages, blindings, random values and challenges, with responses m~ - c*m for the messages, the verifier reconstructs exactly the prover's commitments.", "quantifier": "all keys, messages, blindings, random values, challenges up to 4n", "why_tests_cant": "all random values and challenges", "anchors": ["libzmix/src/verifiable_encryption/cs_verifiable_encryption.rs: encrypt_and_prove_phase_1, encrypt_and_prove_phase_2, reconstruct_blindings_ciphertext"]}
{"id": "C105", "title": "Verifiable encryption: an accepted proof means the ciphertext decrypts", "statement": "If a prover can answer two challenges for one ciphertext and commitment, then the ciphertext decrypts under the label to the messages that the answers fix.", "quantifier": "all adversarial ciphertexts, commitments and answers; keys of safe primes", "why_tests_cant": "adversarial ciphertexts", "anchors": ["libzmix/src/verifiable_encryption/cs_verifiable_encryption.rs: reconstruct_blindings_ciphertext, decrypt"]}
{"id": "C106", "title": "Verifiable encryption does not crash on untrusted input", "statement": "Encryption, decryption and the verifier's reconstruction return a result or an error for every ciphertext, label, list of answers and challenge.", "quantifier": "all inputs", "why_tests_cant": "all inputs", "anchors": ["libzmix/src/verifiable_encryption/cs_verifiable_encryption.rs: encrypt, decrypt, reconstruct_blindings_ciphertext"]}
{"id": "C107", "title": "Verifiable encryption: responses do not reveal the messages", "statement": "The verifier of a proof of encryption, not having the private key, does not learn the messages from ciphertext, commitment, challenge and response.", "quantifier": "all messages, random values and challenges", "why_tests_cant": "what an adversary can compute from a transcript", "anchors": ["libzmix/src/verifiable_encryption/cs_verifiable_encryption.rs: encrypt_and_prove_phase_2"]}
{"id": "C108", "title": "Verifiable encryption: what decryption accepts", "statement": "If decryption returns messages for a ciphertext and a label, whoever made it, then v is at most half of n^2, v^2 is u to the power 2(hash*x3+x2) with the hash of u, all e and the label, and every e opens to the message returned: (e/u^x)^(2*(1/2 mod n)) is (1+n)^m modulo n^2, with m below n; everything else is refused.", "quantifier": "all keys, ciphertexts of invertible elements, labels, hash functions", "why_tests_cant": "adversarial ciphertexts of any length", "anchors": ["libzmix/src/verifiable_encryption/cs_verifiable_encryption.rs: decrypt"]}
{"id": "C109", "title": "Inner product argument: honest proofs are accepted", "statement": "For vectors of 2^k entries (k < 32), all bases, factors and transcripts, create_ipp returns a proof, and verify_ipp on the same transcript accepts it for P = <a*G_factors,G> + <b*H_factors,H> + <a,b>u, unless a challenge is zero.", "quantifier": "all sizes, vectors, bases, factors, transcripts, challenge functions", "why_tests_cant": "unbounded sizes, all challenges", "anchors": ["libzmix/bulletproofs_amcl/src/ipp.rs: create_ipp, verify_ipp, verification_scalars"]}
{"id": "C110", "title": "Inner product argument: an accepted proof means a witness is known", "statement": "From accepting proofs for one P that share prefixes (four challenges with different squares at each round) one computes vectors a, b that open P with inner product as claimed, or a nontrivial relation between the bases.", "quantifier": "all sizes, adversarial proofs, transcripts", "why_tests_cant": "adversarial proofs; extraction argument", "anchors": ["libzmix/bulletproofs_amcl/src/ipp.rs: verify_ipp"]}
{"id": "C111", "title": "Inner product argument: malformed proofs are refused with an error", "statement": "verify_ipp and verification_scalars return an error, and do not crash, for proofs with any number of points.", "quantifier": "all proofs", "why_tests_cant": "all lengths", "anchors": ["libzmix/bulletproofs_amcl/src/ipp.rs: verify_ipp, verification_scalars"]}
{"id": "C112", "title": "Constraint systems: prover and verifier build the same system", "statement": "If a verifier makes the calls the prover makes, giving commitments to the prover's values, then whenever the prover's calls succeed so do the verifier's, and both end with the same transcript, the same constraints and the same numbers of multipliers and commitments, also after the second phase whose constraints depend on challenges; in the prover the output of each multiplier is the product of its inputs, and values of the first phase never change in the second.", "quantifier": "all programs of calls, values, transcripts, challenge functions, callbacks", "why_tests_cant": "all programs and callbacks, unbounded", "anchors": ["libzmix/bulletproofs_amcl/src/r1cs/prover.rs: Prover::{new,commit,multiply,allocate,allocate_multiplier,constrain,specify_randomized_constraints,prove}", "libzmix/bulletproofs_amcl/src/r1cs/verifier.rs: Verifier::{new,commit,multiply,allocate,allocate_multiplier,constrain,verify}", "libzmix/bulletproofs_amcl/src/r1cs/linear_combination.rs"]}
{"id": "C113", "title": "Constraint systems: honest proofs are accepted", "statement": "If the prover's values satisfy all constraints, the proof made by prove is accepted by the verifier that made the same calls, for every random value the verifier draws, unless a challenge is zero.", "quantifier": "all programs, values, generators, randomness, challenge functions", "why_tests_cant": "unbounded sizes, all challenges and randomness", "anchors": ["libzmix/bulletproofs_amcl/src/r1cs/prover.rs: Prover::{new,commit,multiply,allocate,allocate_multiplier,constrain,specify_randomized_constraints,prove}", "libzmix/bulletproofs_amcl/src/r1cs/verifier.rs: Verifier::{new,commit,multiply,allocate,allocate_multiplier,constrain,verify}", "libzmix/bulletproofs_amcl/src/r1cs/linear_combination.rs"]}
{"id": "C114", "title": "Constraint systems: failures are reported, not crashes", "statement": "prove succeeds if the callbacks succeed and there are generators for the padded number of multipliers; otherwise, and for malformed proofs, prove and verify return an error and do not crash.", "quantifier": "all sessions, proofs, numbers of generators", "why_tests_cant": "all shapes of malformed input", "anchors": ["libzmix/bulletproofs_amcl/src/r1cs/prover.rs: Prover::{new,commit,multiply,allocate,allocate_multiplier,constrain,specify_randomized_constraints,prove}", "libzmix/bulletproofs_amcl/src/r1cs/verifier.rs: Verifier::{new,commit,multiply,allocate,allocate_multiplier,constrain,verify}", "libzmix/bulletproofs_amcl/src/r1cs/linear_combination.rs"]}
{"id": "C115", "title": "Constraint systems: an accepted proof means satisfying values are known", "statement": "From accepting proofs of one statement that share prefixes (sufficiently many different challenges at each step) one computes values of all multipliers that, with the committed values, satisfy every gate and every constraint, or a nontrivial linear relation between the generators; the values of the first phase do not depend on the challenges of the second.", "quantifier": "all constraint systems, proofs, adversarial points, challenges, generators", "why_tests_cant": "adversarial proofs; extraction argument, unbounded sizes", "anchors": ["libzmix/bulletproofs_amcl/src/r1cs/verifier.rs: Verifier::verify, flattened_constraints"]}
{"id": "C116", "title": "Bound checks: accepted exactly for numbers in the bounds", "statement": "An accepted bound-check proof for [lower, upper] with n bits means the first committed value is a number between lower and upper; an honest prover of such a number (less than 2^n from both bounds) is accepted.", "quantifier": "all values, bounds, bit counts, blindings, commitments, provers", "why_tests_cant": "must hold for every value, blinding, prover message and set; adversarial provers", "anchors": ["libzmix/bulletproofs_amcl/src/r1cs/gadgets/bound_check.rs: prove_bounded_num, verify_bounded_num", "libzmix/bulletproofs_amcl/src/r1cs/gadgets/helper_constraints/positive_no.rs: positive_no_gadget"]}
{"id": "C117", "title": "Non-zero proofs: accepted exactly for values that are not zero", "statement": "An accepted proof means the first committed value is not 0; an honest prover of a value that is not 0 is accepted.", "quantifier": "all values, blindings, commitments, provers", "why_tests_cant": "must hold for every value, blinding, prover message and set; adversarial provers", "anchors": ["libzmix/bulletproofs_amcl/src/r1cs/gadgets/non_zero.rs: prove_non_zero_val, verify_non_zero_val", "libzmix/bulletproofs_amcl/src/r1cs/gadgets/helper_constraints/non_zero.rs: is_nonzero_gadget"]}
{"id": "C118", "title": "Set membership: accepted exactly for members", "statement": "An accepted proof means the first committed value is in the set (so there is none for the empty set); an honest prover of a member is accepted, also if the set has duplicates.", "quantifier": "all sets, values, blindings, commitments, provers", "why_tests_cant": "must hold for every value, blinding, prover message and set; adversarial provers", "anchors": ["libzmix/bulletproofs_amcl/src/r1cs/gadgets/set_membership.rs: prove_set_membership, verify_set_membership"]}
{"id": "C119", "title": "Set non-membership: accepted exactly for non-members", "statement": "An accepted proof means the first committed value is not in the set; an honest prover of a value outside the set is accepted.", "quantifier": "all sets, values, blindings, commitments, provers", "why_tests_cant": "must hold for every value, blinding, prover message and set; adversarial provers", "anchors": ["libzmix/bulletproofs_amcl/src/r1cs/gadgets/set_non_membership.rs: prove_set_non_membership, verify_set_non_membership"]}
{"id": "C120", "title": "Alternative set membership: accepted exactly for members", "statement": "An accepted proof of the bitmap variant means the committed value is in the set; an honest prover of a member is accepted.", "quantifier": "all sets, values, blindings, commitments, provers", "why_tests_cant": "must hold for every value, blinding, prover message and set; adversarial provers", "anchors": ["libzmix/bulletproofs_amcl/src/r1cs/gadgets/set_membership_alt.rs: prove_set_membership_alt, verify_set_membership_alt, vector_product_gadget"]}
{"id": "C121", "title": "MiMC preimages: accepted exactly for preimages of the image", "statement": "An accepted proof means that the MiMC hash of the two committed values, computed by the library's function, is the image; an honest prover of a preimage is accepted.", "quantifier": "all inputs, constants (any number of rounds), blindings, commitments, provers", "why_tests_cant": "must hold for every value, blinding, prover message and set; adversarial provers", "anchors": ["libzmix/bulletproofs_amcl/src/r1cs/gadgets/mimc.rs: prove_mimc_preimage, verify_mimc_preimage", "libzmix/bulletproofs_amcl/src/r1cs/gadgets/helper_constraints/mimc.rs: mimc, mimc_gadget, enforce_mimc_2_inputs"]}
{"id": "C122", "title": "Poseidon preimages (S-boxes x^3, x^5): accepted exactly for preimages", "statement": "With the S-boxes x^3 and x^5, an accepted proof for 2, 4 or 8 inputs means that the Poseidon hash of the committed values, computed by the library's function with the same parameters, is the image (unless a relation between the commitment generators is found); an honest prover of a preimage is accepted. The permutation gadget likewise determines all outputs.", "quantifier": "all parameters (rounds, keys, matrices, widths), inputs, blindings, commitments, provers", "why_tests_cant": "must hold for every input, parameter set, blinding, prover message; adversarial provers", "anchors": ["libzmix/bulletproofs_amcl/src/r1cs/gadgets/poseidon_hash.rs: prove_knowledge_of_preimage_of_Poseidon_{2,4,8}, verify_knowledge_of_preimage_of_Poseidon_{2,4,8}", "libzmix/bulletproofs_amcl/src/r1cs/gadgets/helper_constraints/poseidon.rs: Poseidon_permutation, Poseidon_permutation_constraints, Poseidon_hash_{2,4,8}, PoseidonParams::new"]}
{"id": "C123", "title": "Poseidon preimages (inverse S-box): accepted exactly for preimages", "statement": "With the inverse S-box, an accepted proof means that the Poseidon hash of the committed values is the image; an honest prover of a preimage is accepted.", "quantifier": "all parameters, inputs, blindings, commitments, provers", "why_tests_cant": "must hold for every input, parameter set, blinding, prover message; adversarial provers", "anchors": ["libzmix/bulletproofs_amcl/src/r1cs/gadgets/helper_constraints/poseidon.rs: synthesize_inverse_sbox, SboxType::Inverse"]}
{"id": "C124", "title": "The verdict does not depend on the order of terms", "statement": "Verifying a proof gives the same result whatever the order of the terms inside each constraint is (LinearCombination::simplify goes through a hash map whose order differs between prover, verifier and runs).", "quantifier": "all verifiers, constraint lists with permuted terms, proofs, generators, randomness, callbacks", "why_tests_cant": "hash map iteration order is random per process; a test sees one order", "anchors": ["libzmix/bulletproofs_amcl/src/r1cs/linear_combination.rs: LinearCombination::simplify", "libzmix/bulletproofs_amcl/src/r1cs/verifier.rs: Verifier::verify, flattened_constraints"]}
{"id": "C125", "title": "A sparse Merkle tree is an array, and every old root stays readable", "statement": "After any sequence of updates, `get` gives for every index the value last written there (0 if none), for the current root and for every root the tree had before; the root is that of the complete tree over these leaves; what was in the database before is kept. (Indices are taken modulo the number of leaves; unless two different nodes hash to the same value.)", "quantifier": "all sequences of updates, depths, hash functions, initial databases, indices", "why_tests_cant": "arrays of up to 8^depth leaves and unbounded histories; a test writes and reads a few leaves", "anchors": ["libzmix/bulletproofs_amcl/src/r1cs/gadgets/helper_constraints/sparse_merkle_tree_4_ary.rs: VanillaSparseMerkleTree4::{new,update,get,verify_proof}", "libzmix/bulletproofs_amcl/src/r1cs/gadgets/helper_constraints/sparse_merkle_tree_8_ary.rs: VanillaSparseMerkleTree8::{new,update,get,verify_proof}", "libzmix/bulletproofs_amcl/src/utils/hash_db.rs: InMemoryHashDb"]}
{"id": "C126", "title": "Merkle proofs: `get` gives proofs that verify, and proofs bind", "statement": "The proof that `get` returns has one node per level and `verify_proof` accepts it for the returned value; if `verify_proof` accepts any proof of a value for an index and the tree's root, then the value is the leaf at that index and the proof is the one of `get` (unless two nodes hashed at the same level are a collision). Too short proofs panic, further nodes are ignored.", "quantifier": "all histories, depths, indices, values, adversarial proofs, hash functions", "why_tests_cant": "forged proofs are arbitrary; a test sees honest ones", "anchors": ["libzmix/bulletproofs_amcl/src/r1cs/gadgets/helper_constraints/sparse_merkle_tree_4_ary.rs: VanillaSparseMerkleTree4::{new,update,get,verify_proof}", "libzmix/bulletproofs_amcl/src/r1cs/gadgets/helper_constraints/sparse_merkle_tree_8_ary.rs: VanillaSparseMerkleTree8::{new,update,get,verify_proof}", "libzmix/bulletproofs_amcl/src/utils/hash_db.rs: InMemoryHashDb", "libzmix/bulletproofs_amcl/src/r1cs/gadgets/merkle_tree_hash.rs: PoseidonHash4, PoseidonHash8"]}
{"id": "C127", "title": "Leaf inclusion proofs (4-ary, 8-ary): accepted exactly for leaves of the tree", "statement": "With commitments to (arity-1)*depth nodes and an S-box x^3 or x^5, an accepted leaf inclusion proof means that the committed index is below the number of leaves and verify_proof accepts the committed nodes as a proof for the leaf at that index; so the leaf is the one in the tree with that root (unless a hash collision or a relation between the generators is found). What get returns for any index of any tree is accepted. One PoseidonHashConstraints object serves one session.", "quantifier": "all trees and histories, indices, leaves (hidden or known), Poseidon parameters, blindings, provers", "why_tests_cant": "must hold for every adversarial prover and every tree", "anchors": ["libzmix/bulletproofs_amcl/src/r1cs/gadgets/sparse_merkle_tree_4_ary.rs: prove_leaf_inclusion_4_ary_merkle_tree, verify_leaf_inclusion_4_ary_merkle_tree", "libzmix/bulletproofs_amcl/src/r1cs/gadgets/sparse_merkle_tree_8_ary.rs: prove_leaf_inclusion_8_ary_merkle_tree, verify_leaf_inclusion_8_ary_merkle_tree", "libzmix/bulletproofs_amcl/src/r1cs/gadgets/helper_constraints/sparse_merkle_tree_4_ary.rs: vanilla_merkle_merkle_tree_4_verif_gadget", "libzmix/bulletproofs_amcl/src/r1cs/gadgets/helper_constraints/sparse_merkle_tree_8_ary.rs: vanilla_merkle_merkle_tree_8_verif_gadget", "libzmix/bulletproofs_amcl/src/r1cs/gadgets/merkle_tree_hash.rs: PoseidonHashConstraints"]}
{"id": "C128", "title": "The verifier's tree depth is enforced", "statement": "A verifier of leaf inclusion with a given depth accepts only proofs with that many levels: inner nodes of the tree are not accepted as leaves.", "quantifier": "all depths, trees, provers", "why_tests_cant": "adversarial proofs with fewer or more nodes", "anchors": ["libzmix/bulletproofs_amcl/src/r1cs/gadgets/sparse_merkle_tree_4_ary.rs: prove_leaf_inclusion_4_ary_merkle_tree, verify_leaf_inclusion_4_ary_merkle_tree", "libzmix/bulletproofs_amcl/src/r1cs/gadgets/sparse_merkle_tree_8_ary.rs: prove_leaf_inclusion_8_ary_merkle_tree, verify_leaf_inclusion_8_ary_merkle_tree", "libzmix/bulletproofs_amcl/src/r1cs/gadgets/helper_constraints/sparse_merkle_tree_4_ary.rs: vanilla_merkle_merkle_tree_4_verif_gadget", "libzmix/bulletproofs_amcl/src/r1cs/gadgets/helper_constraints/sparse_merkle_tree_8_ary.rs: vanilla_merkle_merkle_tree_8_verif_gadget", "libzmix/bulletproofs_amcl/src/r1cs/gadgets/merkle_tree_hash.rs: PoseidonHashConstraints"]}
{"id": "C129", "title": "C interface: a missing argument is refused without effect", "statement": "Every exported function of the C interface for BLS and CL, called with correct handles but with a required argument missing (null pointer, empty or non-UTF-8 string, length 0), returns an error code, writes nothing, and leaves every object as it was. (False of the code for nine functions that do not check the pointer for their result, for the serialization of registry deltas, and for null elements of arrays; these cases are proved too.)", "quantifier": "all 121 exported functions, all argument lists that are correct apart from missing arguments, all states", "why_tests_cant": "121 functions times all subsets of missing arguments; undefined behaviour is not observable in a test", "anchors": ["libursa/src/ffi/bls.rs: ursa_bls_*", "libursa/src/ffi/cl/mod.rs, issuer.rs, prover.rs, verifier.rs: ursa_cl_*, ursa_revocation_registry_delta_from_parts", "libursa/src/utils/ctypes.rs: check_useful_c_ptr, check_useful_c_reference, check_useful_mut_c_reference, check_useful_c_byte_array, check_useful_c_reference_array, check_useful_c_str"]}
{"id": "C130", "title": "C interface: programs that follow the documentation are memory safe", "statement": "A program that passes only live handles of the documented types, in any order and for any number of calls, never reaches undefined behaviour (dangling, ill-typed or aliased references, double release), and at every point the live objects are exactly those the caller has received and not released, with their documented types; whatever the library calls return and whatever addresses the allocator chooses. (False of the code for the serialization and deserialization of registry deltas, for the merge of deltas, and for null result pointers of nine functions; proved for all other functions, with the failures proved as theorems.)", "quantifier": "all programs (finite sequences of calls of the 121 functions), all results of the library, all allocators", "why_tests_cant": "all histories of calls; undefined behaviour may go unnoticed in a test", "anchors": ["libursa/src/ffi/bls.rs: ursa_bls_*", "libursa/src/ffi/cl/mod.rs, issuer.rs, prover.rs, verifier.rs: ursa_cl_*, ursa_revocation_registry_delta_from_parts", "libursa/src/utils/ctypes.rs: check_useful_c_ptr, check_useful_c_reference, check_useful_mut_c_reference, check_useful_c_byte_array, check_useful_c_reference_array, check_useful_c_str"]}
{"id": "C131", "title": "C interface: the code names the first missing parameter", "statement": "When arguments are missing, the code returned is CommonInvalidParamN (99+N) for the first missing parameter N. (False of the code for twelve parameters of nine functions, which are listed; there is no code for parameters beyond the twelfth.)", "quantifier": "all 121 functions, all argument lists", "why_tests_cant": "all combinations of missing arguments for every function", "anchors": ["libursa/src/ffi/bls.rs: ursa_bls_*", "libursa/src/ffi/cl/mod.rs, issuer.rs, prover.rs, verifier.rs: ursa_cl_*, ursa_revocation_registry_delta_from_parts", "libursa/src/utils/ctypes.rs: check_useful_c_ptr, check_useful_c_reference, check_useful_mut_c_reference, check_useful_c_byte_array, check_useful_c_reference_array, check_useful_c_str", "libursa/src/ffi/mod.rs: ErrorCode"]}
{"id": "C132", "title": "C interface: the stored error agrees with the returned code", "statement": "After every call that returns an error code, the error stored for ursa_get_current_error is one whose code is the code returned, and nothing has been written to result pointers; a successful call leaves the stored error unchanged; the translation between kinds and codes loses nothing for parameters 1 to 12. (False of the code for a null array, where the code names the array and the stored error its length.)", "quantifier": "all functions, arguments (correct or not), results of the library, states", "why_tests_cant": "all combinations of functions, arguments and errors of the library", "anchors": ["libursa/src/ffi/bls.rs: ursa_bls_*", "libursa/src/ffi/cl/mod.rs, issuer.rs, prover.rs, verifier.rs: ursa_cl_*, ursa_revocation_registry_delta_from_parts", "libursa/src/utils/ctypes.rs: check_useful_c_ptr, check_useful_c_reference, check_useful_mut_c_reference, check_useful_c_byte_array, check_useful_c_reference_array, check_useful_c_str", "libursa/src/errors/mod.rs: From<UrsaCryptoErrorKind> for ErrorCode, From<ErrorCode> for UrsaCryptoErrorKind, set_current_error"]}
{"id": "C133", "title": "C interface: a failed call leaves the caller's handles usable", "statement": "A call that returns an error code has released nothing: every handle the caller holds can be used as before. (False of the code for the four schema, values and request builders, the proof builder and the proof verifier: when their last step fails the object is gone although an error is returned.)", "quantifier": "all functions, arguments, errors of the library, states", "why_tests_cant": "all failures at every call of every history", "anchors": ["libursa/src/ffi/bls.rs: ursa_bls_*", "libursa/src/ffi/cl/mod.rs, issuer.rs, prover.rs, verifier.rs: ursa_cl_*, ursa_revocation_registry_delta_from_parts", "libursa/src/utils/ctypes.rs: check_useful_c_ptr, check_useful_c_reference, check_useful_mut_c_reference, check_useful_c_byte_array, check_useful_c_reference_array, check_useful_c_str"]}
{"id": "C134", "title": "C interface: every handle can be released, and only releasing functions release", "statement": "For every type of object the interface hands out there is a function documented to release it; a correct, complete call of it removes the object even if the library reports an error; no other function ever removes an object, and a releasing function removes only the object it was given.", "quantifier": "all functions, types, arguments, states", "why_tests_cant": "all histories; a leak or a premature release need not be visible in a test", "anchors": ["libursa/src/ffi/bls.rs: ursa_bls_*", "libursa/src/ffi/cl/mod.rs, issuer.rs, prover.rs, verifier.rs: ursa_cl_*, ursa_revocation_registry_delta_from_parts", "libursa/src/utils/ctypes.rs: check_useful_c_ptr, check_useful_c_reference, check_useful_mut_c_reference, check_useful_c_byte_array, check_useful_c_reference_array, check_useful_c_str"]}
{"id": "C135", "title": "Tails callbacks: every tail taken is put back before the next is taken", "statement": "In every operation that reads tails through the caller's functions (issue, revoke, restore, update a registry, create and update a witness), for all behaviours of these functions, the calls are a sequence of take and put of the same tail, and only a last tail that was refused is not put back; with a list of tails in memory the operations are those of the revocation model.", "quantifier": "all operations, all behaviours of take_tail and put_tail depending on the whole history of calls, all registries and index sets", "why_tests_cant": "all failure points of the caller's functions over unboundedly many accesses", "anchors": ["libursa/src/ffi/cl/mod.rs: FFITailsAccessor, FFITailTake, FFITailPut", "libursa/src/cl/issuer.rs: revoke_credential, recovery_credential, update_revocation_registry, _new_non_revocation_credential", "libursa/src/cl/mod.rs: RevocationTailsAccessor, SimpleTailsAccessor, Witness::new, Witness::update"]}
{"id": "C136", "title": "Failed registry operations leave the registry unchanged", "statement": "If revoking, restoring, issuing or updating fails because a tail cannot be accessed, the registry is as before; likewise the witness. (False of the code for the registry: when put_tail fails the registry has already been changed but no delta is returned, so a repeated revocation takes the tail away twice and its delta cannot be merged with the published ones; a failed update of several credentials leaves a part of them applied. Proved for the witness, and for one credential when tails can be put back; the state after each failure is proved in general.)", "quantifier": "all operations, all behaviours of take_tail and put_tail, all registries and index sets", "why_tests_cant": "all failure points of the caller's functions over unboundedly many accesses", "anchors": ["libursa/src/ffi/cl/mod.rs: FFITailsAccessor, FFITailTake, FFITailPut", "libursa/src/cl/issuer.rs: revoke_credential, recovery_credential, update_revocation_registry, _new_non_revocation_credential", "libursa/src/cl/mod.rs: RevocationTailsAccessor, SimpleTailsAccessor, Witness::new, Witness::update"]}
{"id": "C137", "title": "C encryption interface: return value, error code and output fit together for all arguments", "statement": "ursa_encrypt and ursa_decrypt, for every algorithm name, key, nonce, associated data and input, null or not: an unknown algorithm gives 0 and code 11, a key of a wrong length 0 and code 8, a nonce of a wrong length 0 and code 9, a ciphertext that does not decrypt 0 and code 7, and the output is not written; otherwise 1 without an error code and the output is written. (False of the code for a null or non-UTF-8 algorithm name, where the call panics across the C boundary.)", "quantifier": "all strings, all byte arrays or null pointers, all random nonces, all behaviours of the cipher primitives", "why_tests_cant": "all combinations of argument faults and lengths", "anchors": ["libursa/src/ffi/encryption/mod.rs: ffi_encryption_impl, ffi_encryption_alias, ursa_encrypt, ursa_decrypt", "libursa/src/ffi/mod.rs: ByteArray"]}
{"id": "C138", "title": "C encryption interface: round trip", "statement": "What is encrypted through the C interface, with an explicit nonce or with a random one, is decrypted by it with the same key, nonce argument and associated data to the same plaintext. (False of the code for plaintexts below a threshold, for which decryption returns 0 with code 7; the exact threshold is proved for each algorithm.)", "quantifier": "all algorithms, keys, nonces, associated data and plaintexts, null or not", "why_tests_cant": "all lengths of inputs", "anchors": ["libursa/src/ffi/encryption/mod.rs: ffi_encryption_impl, ffi_encryption_alias, ursa_encrypt, ursa_decrypt", "libursa/src/ffi/mod.rs: ByteArray"]}
{"id": "C139", "title": "Ed25519: signatures verify", "statement": "For every key pair that is generated, from a seed, or expanded from at least 32 bytes of key material, and every message, signing gives 64 bytes that verification accepts; loading the private key gives the same pair again; key material below 32 bytes is an error.", "quantifier": "all keys, seeds, messages, signatures and hash functions; the elliptic curve crates by contract", "why_tests_cant": "all byte strings, and hash functions that tests cannot vary", "anchors": ["libursa/src/signatures/ed25519.rs: Ed25519Sha512::{keypair, sign, verify, expand_keypair}"]}
{"id": "C140", "title": "Ed25519: verification accepts exactly the valid signatures", "statement": "Verification returns Ok(true) exactly if the public key is a point A, the signature has 64 bytes, its second half is a number s below the order of the base point, and its first half is the encoding of s B - c A for the challenge c; everything else is an error, never Ok(false) and never a panic; signing and loading fail with an error exactly for private keys that are not 64 bytes with a point as second half.", "quantifier": "all keys, seeds, messages, signatures and hash functions; the elliptic curve crates by contract", "why_tests_cant": "all byte strings, and hash functions that tests cannot vary", "anchors": ["libursa/src/signatures/ed25519.rs: Ed25519Sha512::{keypair, sign, verify, expand_keypair}"]}
{"id": "C141", "title": "Ed25519: signatures cannot be changed without the key", "statement": "For one message and key at most one second half fits a first half, numbers not below the order are refused, and whoever has accepted signatures with the same first half for two different challenges can compute the private scalar.", "quantifier": "all keys, seeds, messages, signatures and hash functions; the elliptic curve crates by contract", "why_tests_cant": "all byte strings, and hash functions that tests cannot vary", "anchors": ["libursa/src/signatures/ed25519.rs: Ed25519Sha512::{keypair, sign, verify, expand_keypair}"]}
{"id": "C142", "title": "Ed25519: a signature is for one message", "statement": "A signature accepted for two messages means that the hashes of first half, public key and message agree modulo the order. (False for the neutral element as public key, which is not refused: there signatures are accepted for every message. Proved for all public keys that are non-zero multiples of the base point.)", "quantifier": "all keys, seeds, messages, signatures and hash functions; the elliptic curve crates by contract", "why_tests_cant": "all byte strings, and hash functions that tests cannot vary", "anchors": ["libursa/src/signatures/ed25519.rs: Ed25519Sha512::{keypair, sign, verify, expand_keypair}"]}
{"id": "C143", "title": "Ed25519: private keys with a wrong public half are refused", "statement": "Loading a private key, or signing with it, fails if its second half is not the public key of its first half. (False of the code: every point is accepted, the public key of the pair is then the wrong one, the signature is refused by it, and together with a right signature of the same message it reveals the private scalar.)", "quantifier": "all keys, seeds, messages, signatures and hash functions; the elliptic curve crates by contract", "why_tests_cant": "all byte strings, and hash functions that tests cannot vary", "anchors": ["libursa/src/signatures/ed25519.rs: Ed25519Sha512::{keypair, sign, verify, expand_keypair}"]}
{"id": "C144", "title": "Signer: the public key of a malformed private key is an error", "statement": "Signer::get_public_key returns the public key or an error. (False of the code: it panics exactly where loading the private key gives an error.)", "quantifier": "all byte strings as private key", "why_tests_cant": "all malformed keys", "anchors": ["libursa/src/signatures/mod.rs: Signer::get_public_key", "libursa/src/signatures/ed25519.rs: Ed25519Sha512::{keypair, sign, verify, expand_keypair}"]}
{"id": "C145", "title": "Ed25519 keys convert to X25519 keys", "statement": "For every generated Ed25519 key pair both conversions succeed and give an X25519 key pair, so two parties that convert their keys agree on a session key; conversions fail with an error exactly for a public key that is not a point and a private key below 32 bytes, and never panic.", "quantifier": "all keys, seeds, messages, signatures and hash functions; the elliptic curve crates by contract", "why_tests_cant": "all byte strings, and hash functions that tests cannot vary", "anchors": ["libursa/src/signatures/ed25519.rs: ver_key_to_key_exchange, sign_key_to_key_exchange", "libursa/src/kex/x25519.rs: X25519Sha256::{keypair, compute_shared_secret}"]}
{"id": "C146", "title": "X25519: both sides compute the same session key", "statement": "For all key pairs, generated, from a seed or loaded, compute_shared_secret gives both sides the same 32 bytes, and loading a private key gives the same pair again.", "quantifier": "all keys, seeds, messages, signatures and hash functions; the elliptic curve crates by contract", "why_tests_cant": "all byte strings, and hash functions that tests cannot vary", "anchors": ["libursa/src/kex/x25519.rs: X25519Sha256::{keypair, compute_shared_secret}"]}
{"id": "C147", "title": "X25519: malformed keys are refused with an error", "statement": "keypair and compute_shared_secret return an error for keys that are not 32 bytes long. (False of the code: shorter keys panic, of longer ones the first 32 bytes are used; exactly these cases are proved.)", "quantifier": "all byte strings as keys", "why_tests_cant": "all lengths", "anchors": ["libursa/src/kex/x25519.rs: X25519Sha256::{keypair, compute_shared_secret}"]}
{"id": "C148", "title": "X25519: the session key depends on both sides", "statement": "A remote public key cannot force the session key. (False of the code: 32 zero bytes are accepted and give the hash of 32 zero bytes for every private key. Proved for remote keys that are multiples of the base point, before hashing.)", "quantifier": "all keys, seeds, messages, signatures and hash functions; the elliptic curve crates by contract", "why_tests_cant": "all byte strings, and hash functions that tests cannot vary", "anchors": ["libursa/src/kex/x25519.rs: X25519Sha256::{keypair, compute_shared_secret}"]}
{"id": "C149", "title": "C interface of Ed25519: return value, error code and outputs fit together", "statement": "Each function returns 1 with code 0 and its outputs written exactly if the operation of the scheme succeeds, otherwise 0 with code 1 (keys), 2 (signing) or 3 (verification) and no output written; a null array is an empty one; keys made through the interface sign and verify through it.", "quantifier": "all byte arrays or null pointers", "why_tests_cant": "all combinations of arguments", "anchors": ["libursa/src/ffi/signatures/ed25519.rs: ursa_ed25519_*"]}
{"id": "C150", "title": "ECDSA secp256k1: signatures verify", "statement": "For every key pair, generated, from a seed or loaded, and every message, signing succeeds, the signature has 64 bytes and a second number of at most n/2, and verification accepts it; loading a private key gives the same pair, exactly for 32 bytes that are a number from 1 to n-1.", "quantifier": "all keys, seeds, messages, signatures and hash functions; the crates secp256k1 and k256 by contract", "why_tests_cant": "all byte strings, and hash functions that tests cannot vary", "anchors": ["libursa/src/signatures/secp256k1.rs: EcdsaSecp256k1Sha256 (native build)"]}
{"id": "C151", "title": "ECDSA secp256k1: verification accepts exactly the valid signatures", "statement": "Verification returns Ok(true) exactly if the key can be parsed, the signature is 64 bytes with two numbers below n, the second at most n/2, and the equation of ECDSA holds; Ok(false) if only the last two fail; a parse error otherwise. Neither verification nor signing panics.", "quantifier": "all keys, seeds, messages, signatures and hash functions; the crates secp256k1 and k256 by contract", "why_tests_cant": "all byte strings, and hash functions that tests cannot vary", "anchors": ["libursa/src/signatures/secp256k1.rs: EcdsaSecp256k1Sha256 (native build)"]}
{"id": "C152", "title": "ECDSA secp256k1: exactly one of the two forms of a signature is accepted", "statement": "Of the two signatures that differ in the sign of the second number exactly one is accepted; normalize_s keeps the first number, gives the accepted form, does nothing the second time, and fails with an error exactly for malformed signatures.", "quantifier": "all keys, seeds, messages, signatures and hash functions; the crates secp256k1 and k256 by contract", "why_tests_cant": "all byte strings, and hash functions that tests cannot vary", "anchors": ["libursa/src/signatures/secp256k1.rs: EcdsaSecp256k1Sha256 (native build)"]}
{"id": "C153", "title": "ECDSA secp256k1: formats of public keys", "statement": "parse, public_key_compressed and public_key_uncompressed convert between the forms of the same key and return an error for malformed keys. (False of the code: for malformed keys the last two panic. Proved for all keys that can be parsed.)", "quantifier": "all keys, seeds, messages, signatures and hash functions; the crates secp256k1 and k256 by contract", "why_tests_cant": "all byte strings, and hash functions that tests cannot vary", "anchors": ["libursa/src/signatures/secp256k1.rs: EcdsaSecp256k1Sha256 (native build)"]}
{"id": "C154", "title": "secp256k1: every seed gives a key that depends on all of it", "statement": "As documented, keys from a seed come from its hash, so every seed is accepted and all of it counts. (False of the code: seeds below 32 bytes panic, and bytes after the first 32 are ignored; what is computed for longer seeds is proved.)", "quantifier": "all keys, seeds, messages, signatures and hash functions; the crates secp256k1 and k256 by contract", "why_tests_cant": "all byte strings, and hash functions that tests cannot vary", "anchors": ["libursa/src/signatures/secp256k1.rs: EcdsaSecp256k1Sha256 (native build)", "libursa/src/kex/secp256k1.rs: EcdhSecp256k1Sha256 (native and pure build)"]}
{"id": "C155", "title": "ECDH secp256k1: both sides compute the same secret", "statement": "In both builds, for all key pairs of either build, compute_shared_secret gives both sides the same 32 bytes; malformed keys give a parse error and never a panic.", "quantifier": "all keys, seeds, messages, signatures and hash functions; the crates secp256k1 and k256 by contract", "why_tests_cant": "all byte strings, and hash functions that tests cannot vary", "anchors": ["libursa/src/kex/secp256k1.rs: EcdhSecp256k1Sha256 (native and pure build)"]}
{"id": "C156", "title": "ECDH secp256k1: the two builds compute the same secret", "statement": "A party with the native build and a party with the pure build agree on the secret. (False of the code: the native build returns the SHA-256 hash of the compressed point, the pure build the x-coordinate, so they agree only if these coincide; the pure build does not distinguish a remote key from its negative.)", "quantifier": "all keys, seeds, messages, signatures and hash functions; the crates secp256k1 and k256 by contract", "why_tests_cant": "all byte strings, and hash functions that tests cannot vary", "anchors": ["libursa/src/kex/secp256k1.rs: EcdhSecp256k1Sha256 (native and pure build)"]}
{"id": "C157", "title": "ECDH secp256k1: malformed private keys are refused when loaded", "statement": "keypair returns an error for a private key that is not 32 bytes. (False of the pure build: shorter ones panic, of longer ones the first 32 bytes are used; proved for the native build, and for 32 bytes both builds behave alike.)", "quantifier": "all byte strings as private key", "why_tests_cant": "all lengths", "anchors": ["libursa/src/kex/secp256k1.rs: EcdhSecp256k1Sha256 (native and pure build)"]}
{"id": "C158", "title": "BigNumber: decimal text and serialization round trip", "statement": "For every integer, positive, zero or negative, from_dec(to_dec(a)) = a and deserializing the serialized number gives a, in each build and from one build to the other; to_dec is the usual decimal numeral and different numbers have different texts.", "quantifier": "all integers, both builds", "why_tests_cant": "all integers, and two builds that no test compares", "anchors": ["libursa/src/bn/openssl.rs: BigNumber (native build)", "libursa/src/bn/rust.rs: BigNumber (pure build)"]}
{"id": "C159", "title": "BigNumber: hexadecimal text round trip", "statement": "For every integer from_hex(to_hex(a)) = a, in each build and from one build to the other (the texts themselves differ: the native build writes whole bytes).", "quantifier": "all integers, both builds", "why_tests_cant": "all integers, and two builds that no test compares", "anchors": ["libursa/src/bn/openssl.rs: BigNumber (native build)", "libursa/src/bn/rust.rs: BigNumber (pure build)"]}
{"id": "C160", "title": "BigNumber: a text is read as the same number by both builds or refused by both", "statement": "from_dec, from_hex and deserialization accept the same texts in both builds, with the same value, and never panic. (False of the code: 1_0 is 10 in the pure and 1 in the native build; the native build ignores whatever follows the digits and panics for a zero character; the pure build accepts a plus sign. What each build accepts is proved exactly; a text of an optional minus sign and digits is read alike, and so is every text without underscore that both accept.)", "quantifier": "all texts, both builds", "why_tests_cant": "all character strings", "anchors": ["libursa/src/bn/openssl.rs: BigNumber (native build)", "libursa/src/bn/rust.rs: BigNumber (pure build)"]}
{"id": "C161", "title": "BigNumber: the two builds compute the same", "statement": "add, sub, mul, sqr, gcd, cmp, num_bits, words, div, lshift1, set_negative, copies, modulus, mod_mul, mod_sub on all integers; mod_exp with exponents that are not negative for all moduli but 0; inverse, mod_div and negative exponents for operands that are not negative and moduli of magnitude above 1; random_qr for the same random number: both builds give the same value or both an error.", "quantifier": "all operands in the stated domains, both builds", "why_tests_cant": "all integers, and two builds that no test compares", "anchors": ["libursa/src/bn/openssl.rs: BigNumber (native build)", "libursa/src/bn/rust.rs: BigNumber (pure build)"]}
{"id": "C162", "title": "BigNumber: exactly where the two builds differ", "statement": "to_bytes differs exactly for 0 (so hashes of it differ), from_u32 exactly from 2^32 on, increment and decrement exactly below 0, rshift1 exactly for odd negative numbers, rshift exactly below 0 with a remainder or from 2^31 on, is_bit_set exactly for negative numbers at positions above the lowest bit set or below 0, exp exactly for 0^0, negative exponents of other bases and exponents from 2^64 on. set_bit at negative positions, mod_exp modulo 0 and rand_range up to a bound that is not positive panic in the pure build and return in the native one; inverses of negative numbers and modulo 1 and -1 differ.", "quantifier": "all operands, both builds", "why_tests_cant": "all integers, and two builds that no test compares", "anchors": ["libursa/src/bn/openssl.rs: BigNumber (native build)", "libursa/src/bn/rust.rs: BigNumber (pure build)"]}
{"id": "C163", "title": "BigNumber: primes in a range and safe primes", "statement": "generate_prime_in_range returns a prime p with start <= p < end, and an error if there is none; is_safe_prime accepts exactly the safe primes. (False of the code: the pure build may return the end if it is odd, never returns 2 and panics for equal bounds; both builds search for ever in a range without primes; the native is_safe_prime refuses 7. Proved otherwise, relative to the probabilistic test of primality; for the range of credential exponents the number is strictly inside.)", "quantifier": "all bounds, all sequences of random numbers, all outcomes of the primality test", "why_tests_cant": "all sequences of random numbers", "anchors": ["libursa/src/bn/openssl.rs: BigNumber (native build)", "libursa/src/bn/rust.rs: BigNumber (pure build)"]}
{"id": "C164", "title": "Scalars: computing with them is computing in the field", "statement": "Every computation with scalars made of from_bytes, new, new_from_seed, add_mod, mul_mod, mod_neg, inverse and pow_mod ends in a scalar that stands for the value of the same expression in the prime field of the group order, whether or not the bytes it started from were below the order; results of everything but from_bytes and mod_neg are reduced, so == on them is equality in the field. The exponent of pow_mod is the number, not its residue.", "quantifier": "all expressions, all byte strings, all random values", "why_tests_cant": "all expressions and all 256-bit operands", "anchors": ["libursa/src/pair/amcl.rs: GroupOrderElement", "libursa/src/cl/prover.rs: _finalize_non_revocation_proof"]}
{"id": "C165", "title": "Scalars: subtraction", "statement": "sub_mod gives the difference modulo the group order. (False of the code: a negative difference is negated, so the result is the distance of the two numbers; it is the difference exactly if the subtrahend is not the larger number.)", "quantifier": "all pairs of scalars", "why_tests_cant": "all pairs of operands", "anchors": ["libursa/src/pair/amcl.rs: GroupOrderElement"]}
{"id": "C166", "title": "Scalars: encodings", "statement": "to_bytes gives 32 bytes that from_bytes reads back; from_bytes reads exactly the strings of at most 32 bytes, as big-endian numbers, and two strings give the same scalar exactly if they agree up to leading zeros; a field element has one encoding. (The last part is false of the code: values at and above the group order are accepted and are not == to their residues.)", "quantifier": "all byte strings and scalars", "why_tests_cant": "all byte strings", "anchors": ["libursa/src/pair/amcl.rs: GroupOrderElement"]}
{"id": "C167", "title": "Numbers and scalars are converted into each other faithfully", "statement": "bignum_to_group_element accepts exactly the numbers of magnitude below 2^256 and refuses others; group_element_to_bignum is its inverse; the power of the revocation secret for an index is that power in the field for every u32 index. (The sign of a number is lost: a number and its negative give the same scalar.)", "quantifier": "all integers, scalars and u32 indices", "why_tests_cant": "all integers", "anchors": ["libursa/src/cl/helpers.rs: bignum_to_group_element, group_element_to_bignum", "libursa/src/cl/mod.rs: Tail::new_tail", "libursa/src/cl/issuer.rs: _new_non_revocation_credential"]}
{"id": "C168", "title": "Hashing to the curve always gives a point", "statement": "PointG1::from_hash ends for every digest of at most 32 bytes, after fewer steps than the size of the base field, in a point other than the point at infinity: the one with the least x coordinate from the digest upwards; longer digests are refused.", "quantifier": "all digests, all curves with a point", "why_tests_cant": "all digests; termination", "anchors": ["libursa/src/pair/amcl.rs: PointG1::from_hash"]}
{"id": "C169", "title": "BLS on BN254: messages with different digests have different signatures", "statement": "A signature on one message is not accepted for another message whose digest differs. (False of the code: from_hash counts upwards to the next coordinate of a point, so neighbouring digests are mapped to the same point; converse: points determine digests up to such gaps and the size of the field.)", "quantifier": "all pairs of messages and all keys", "why_tests_cant": "all messages and keys", "anchors": ["libursa/src/pair/amcl.rs: PointG1::from_hash", "libursa/src/bls/mod.rs: Bls::_hash, Bls::verify"]}
{"id": "C170", "title": "JSON: every object of the CL scheme survives storage", "statement": "Every key, proof of a key, blinded secret, blinding factor, signature, proof of a signature, secret, schema, set of values, registry, delta, witness, generator, presentation that is written as JSON is read back as the same object, also when one of writing and reading is done by the portable and the other by the native build.", "quantifier": "all objects of every type, both builds on either side", "why_tests_cant": "all objects: maps of any size, numbers of any size", "anchors": ["libursa/src/cl/mod.rs: Serialize / Deserialize of all types", "libursa/src/bn/rust.rs: Serialize, Deserialize", "libursa/src/bn/openssl.rs: Serialize, Deserialize"]}
{"id": "C171", "title": "JSON: documents of the older format mean the same", "statement": "A public key with the base of the link secret under rms, and an equality proof with the answer for the link secret under m1, are read as the same key or proof with this number under the name master_secret; it replaces an entry of that name in the map, and a zero there counts as none.", "quantifier": "all keys and proofs, all numbers", "why_tests_cant": "all keys and proofs", "anchors": ["libursa/src/cl/mod.rs: Deserialize for CredentialPrimaryPublicKey, PrimaryEqualProof"]}
{"id": "C172", "title": "JSON: which documents are accepted", "statement": "For every type: only objects are accepted; each required field must occur exactly once and each optional one at most once; the order of fields and unknown fields have no influence; a repeated name in a map counts with its last value; and no document crashes the reader. (The last part is false of the native build: a number with the character of code 0 crashes it; without such a character nothing does, and the portable build never crashes.)", "quantifier": "all documents", "why_tests_cant": "all documents", "anchors": ["libursa/src/cl/mod.rs: Deserialize of all types", "libursa/src/bn/openssl.rs: from_dec"]}
{"id": "C173", "title": "Stored generators and revealed values", "statement": "A generator of tails may be stored and read back between any two tails without changing the tails; count is the number of tails left; revealed_attrs gives for each revealed attribute a text both builds read as its value; a generator read from a document is usable. (The last part is false of the code: an index beyond the size is read, and count then crashes or wraps.)", "quantifier": "all interleavings of taking tails and storing; all sub-proofs", "why_tests_cant": "all interleavings", "anchors": ["libursa/src/cl/mod.rs: RevocationTailsGenerator, SubProof::revealed_attrs"]}
{"id": "C174", "title": "Builders of schemas and values: the last successful call counts", "statement": "A schema has exactly the attributes added, in order, whatever the order and number of calls. Values have for each attribute what the last successful call for it has set and nothing else; a call fails exactly if a text is not a number and then changes nothing; the decimal text of a number sets the same as the number; two histories that agree on the last successful call per attribute give the same values; the results survive storage.", "quantifier": "all histories of calls, both builds", "why_tests_cant": "all histories of calls", "anchors": ["libursa/src/cl/mod.rs: CredentialSchemaBuilder, NonCredentialSchemaBuilder, CredentialValuesBuilder"]}
{"id": "C175", "title": "Builder of proof requests: exactly what was asked for", "statement": "A request reveals exactly the attributes asked for and has exactly the predicates asked for with one of the types GE, LE, GT, LT, once each, ordered by name, type and value; other types are refused without any change; order and number of calls have no influence; a request read from a document is the one built from its names and predicates.", "quantifier": "all histories of calls, all documents", "why_tests_cant": "all histories of calls", "anchors": ["libursa/src/cl/mod.rs: SubProofRequestBuilder, SubProofRequest"]}
{"id": "C176", "title": "Texts of keys", "statement": "A key written as JSON is a string of lower-case hexadecimal digits and is read back as the same key; exactly the strings of an even number of hexadecimal digits of either case are accepted, of any length, and denote the bytes of that numeral; two of them are the same key exactly if they differ in case only; no document crashes the reader; key generation options are read back, from exactly one form of document; and printing a key does not reveal it. (The last part is false of the code: Display and Debug print all bytes of private keys.)", "quantifier": "all keys, all documents, all texts", "why_tests_cant": "all texts and keys", "anchors": ["libursa/src/utils/macros.rs: impl_bytearray!", "libursa/src/keys.rs: PrivateKey, PublicKey, SessionKey, MacKey, KeyGenOption"]}
{"id": "C177", "title": "JavaScript interface: signatures and key exchange do what the native functions do", "statement": "With keys as hexadecimal texts, each call gives the result of the native function for the bytes, or throws if that returns an error: keys generated in JavaScript sign, verify, reload and agree on session keys; a malformed key is refused with an exception, and exceptions say what went wrong. (The last two are false of the code: a key that is not hexadecimal crashes every call, and every exception has the text _e.)", "quantifier": "all texts, messages, signatures and seeds, for every scheme", "why_tests_cant": "all texts and messages", "anchors": ["libursa/src/wasm/mod.rs: WasmPublicKey, WasmPrivateKey, WasmSessionKey", "libursa/src/wasm/macros.rs: maperr!", "libursa/src/wasm/ed25519.rs", "libursa/src/wasm/x25519.rs", "libursa/src/wasm/secp256k1.rs"]}
{"id": "C178", "title": "JavaScript interface: encryption", "statement": "with_key accepts exactly the name of a cipher with the hexadecimal text of a key of its length, new makes one for exactly these names; encrypt and decrypt do with a usable cipher key what the native cipher does, throw for every other one and never crash; what was encrypted is decrypted. (The last part is false for short plaintexts, as for the native functions; the thresholds are proved.)", "quantifier": "all cipher keys, whether made by the library or not, all plaintexts and ciphertexts", "why_tests_cant": "all cipher keys, lengths and contents", "anchors": ["libursa/src/wasm/encryption.rs: UrsaEncryptor, WasmCipherKey, operation_impl!"]}
{"id": "C179", "title": "BLS objects as JSON, and through the JavaScript interface", "statement": "Keys and signatures written as JSON are read back; in JavaScript, a signature is checked for the message, key and generator given, and multi-signatures are made of and checked against lists of documents; a key read from a document is the key of its bytes, and documents that cannot be read are refused with an exception. (The last two are false of the code: point and bytes are read independently, so a document can show the bytes of one key and accept signatures and proofs of possession of another; unreadable documents crash the call.)", "quantifier": "all keys, signatures, messages, lists of documents", "why_tests_cant": "all documents and keys", "anchors": ["libursa/src/bls/mod.rs: Serialize / Deserialize of Generator, VerKey, Signature, MultiSignature, ProofOfPossession", "libursa/src/wasm/bls.rs: Bls, MultiSignature"]}
{"id": "C180", "title": "Poseidon: the permutation is one, and mixes", "statement": "With the parameters that PoseidonParams::new makes (they exist exactly for widths 3, 5, 9 and at most 63, 64, 65 rounds): every state of the right size is the image of exactly one state, so that different inputs never run into the same state; and one full round spreads every change over the state as far as possible (two states differ before and after it at width + 1 positions at least). This holds for every S-box on offer. (False for the cube: 3 divides the order of the group minus 1, so every input has an explicit second input, at each position, with the same hash.)", "quantifier": "all states, all numbers of rounds, the three widths, with the constants of the source", "why_tests_cant": "all states and numbers of rounds", "anchors": ["libzmix/bulletproofs_amcl/src/r1cs/gadgets/helper_constraints/poseidon.rs: PoseidonParams::new, SboxType::apply_sbox, Poseidon_permutation, Poseidon_hash_2, Poseidon_hash_4, Poseidon_hash_8", "libzmix/bulletproofs_amcl/src/r1cs/gadgets/poseidon_constants.rs: MDS_ENTRIES_W_3, MDS_ENTRIES_W_5, MDS_ENTRIES_W_9, ROUND_CONSTS_W_3, ROUND_CONSTS_W_5, ROUND_CONSTS_W_9"]}
{"id": "C181", "title": "Merkle trees: a root fixes the leaves, for every hash function on offer", "statement": "A proof for a value of a leaf is not a proof for another value that can be written down, and storing different values gives different roots. (False for Poseidon with the cube: for every leaf, value and proof, verify_proof gives the same answer for an explicit other value, and update gives the same root.)", "quantifier": "all trees of depth at least 1, all leaves, values and proofs", "why_tests_cant": "all values and proofs", "anchors": ["libzmix/bulletproofs_amcl/src/r1cs/gadgets/helper_constraints/sparse_merkle_tree_4_ary.rs: update, verify_proof", "libzmix/bulletproofs_amcl/src/r1cs/gadgets/helper_constraints/sparse_merkle_tree_8_ary.rs: update, verify_proof", "libzmix/bulletproofs_amcl/src/r1cs/gadgets/merkle_tree_hash.rs: PoseidonHash4, PoseidonHash8"]}
{"id": "C182", "title": "Bulletproofs: a proof says nothing but the statement", "statement": "Two provers who have built the same statement with the same commitments, with any two sets of values that satisfy it, make every proof with exactly equally many choices of their random values: proofs have the same distribution (challenge y = 0 excluded), whatever the transcript hash, also with constraints that depend on challenges. The commitments themselves open to every value with exactly one blinding.", "quantifier": "all statements (sessions of any length, with any callbacks), all values satisfying them, all proofs, all random values, all oracles", "why_tests_cant": "counts over all random values, for all statements and proofs", "anchors": ["libzmix/bulletproofs_amcl/src/r1cs/prover.rs: Prover::prove, Prover::commit", "libzmix/bulletproofs_amcl/src/ipp.rs: create_ipp"]}
{"id": "C183", "title": "The text of an error can be read by a JSON parser and names its kind", "statement": "What ursa_get_current_error hands out after a failed call is, read as a C string, a JSON object with the fields backtrace and message that says exactly the message of the error and its backtrace, whatever characters they contain (quotes, backslashes, control characters, the character 0); storing it never panics. The first line of the message names the kind, and kinds with different texts are distinguishable.", "quantifier": "all errors, causes, messages and backtraces", "why_tests_cant": "must hold for every message text", "anchors": ["libursa/src/errors/mod.rs: set_current_error, UrsaCryptoError::fmt, UrsaCryptoErrorKind", "libursa/src/ffi/mod.rs: ursa_get_current_error"]}
{"id": "C184", "title": "The current error belongs to the thread, and the pointer lives until its next failure", "statement": "In every interleaving of any number of threads, ursa_get_current_error gives a thread null if none of its calls has failed and otherwise a pointer to a live string with the error of its own last failed call. The pointer stays valid, with the same text, whatever other threads do, until the thread fails again or ends; then it dangles. No string is leaked.", "quantifier": "all histories of all numbers of threads, all allocators", "why_tests_cant": "interleavings of threads and the lifetime of pointers", "anchors": ["libursa/src/errors/mod.rs: CURRENT_ERROR_C_JSON, set_current_error, get_current_error_c_json", "libursa/src/ffi/mod.rs: ursa_get_current_error"]}
{"id": "C185", "title": "Loggers: exactly one call wins, in every interleaving", "statement": "When several threads install loggers at once, at most one call ever returns success, its logger and level stay installed for ever, every other call returns an error and changes nothing, and no call can be stuck.", "quantifier": "all numbers of threads, all interleavings of the steps of the calls and of log records", "why_tests_cant": "interleavings of atomic steps", "anchors": ["libursa/src/ffi/logger.rs: ursa_set_logger, ursa_set_default_logger", "libursa/src/utils/logger.rs: HLCryptoLogger::init, HLCryptoDefaultLogger::init"]}
{"id": "C186", "title": "Loggers: a custom logger gets the records its enabled callback admits", "statement": "After ursa_set_logger has returned success every record is passed to the log callback, with exactly its level, target, message, module path, file and line, if the callback enabled admits it, and not otherwise.", "quantifier": "all records, callbacks, threads and histories", "why_tests_cant": "all record texts and all interleavings", "anchors": ["libursa/src/ffi/logger.rs: ursa_set_logger", "libursa/src/utils/logger.rs: HLCryptoLogger::log, HLCryptoLogger::enabled"]}
{"id": "C187", "title": "Presentations without predicates and without non-revocation are statistically unlinkable", "statement": "Two holders whose credentials agree in what is asked for (same issuers, same revealed values; any number of credentials, common attributes allowed) give presentations that no verifier, however powerful and however he chooses requests and nonces, can tell apart, except with probability below n((k+1)|K|+9k)/2^79 for n presentations of k credentials with attributes K. In particular he cannot tell whether two presentations come from one credential or from two; nor learn the master secret, the signature or a hidden attribute.", "quantifier": "all keys, credentials of the sizes the issuer uses, requests, nonces, hash functions, adaptive observers", "why_tests_cant": "a statement about distributions over about 2^8000 random choices", "anchors": ["libursa/src/cl/prover.rs: ProofBuilder::add_sub_proof_request, _init_eq_proof, _finalize_eq_proof, finalize", "libursa/src/cl/helpers.rs: get_mtilde", "libursa/src/cl/constants.rs: LARGE_MVECT, LARGE_ETILDE, LARGE_VTILDE, LARGE_VPRIME"]}
{"id": "C188", "title": "Presentations with a non-revocation part do not identify the credential", "statement": "A presentation that proves non-revocation reveals nothing that is particular to the credential: two presentations of one credential cannot be told from presentations of two credentials.", "quantifier": "all credentials, random values, nonces and hash functions", "why_tests_cant": "a statement about all random values", "anchors": ["libursa/src/cl/prover.rs: ProofBuilder::add_sub_proof_request (m2_tilde), _finalize_eq_proof, _finalize_non_revocation_proof", "libursa/src/cl/issuer.rs: _new_non_revocation_credential"]}
{"id": "C189", "title": "Presentations with predicates do not determine the attribute's value", "statement": "A presentation that proves a predicate reveals, even to an unbounded observer, nothing about the value beyond the predicate.", "quantifier": "all keys, values, predicates and random values of the sizes the prover uses", "why_tests_cant": "a statement about all random values", "anchors": ["libursa/src/cl/prover.rs: ProofBuilder::_init_ne_proof, _finalize_ne_proof", "libursa/src/cl/constants.rs: LARGE_RTILDE, LARGE_VPRIME"]}
{"id": "C190", "title": "Hiding from issuance to presentation", "statement": "Every credential a holder obtains by running key generation, blinding, signing and processing with numbers of the sizes the code draws is of the form that hiding needs (the signature lies in the group generated by the key, the equation holds, the sizes fit). Hence two holders who obtained credentials from the same issuers, with any hidden attributes and any randomness of the issuance, give presentations (no predicates, no non-revocation) that nobody, not even the issuers, can tell apart except with probability ((k+1)|K|+9k)/2^79.", "quantifier": "all primes, keys, attribute values, issuance runs, requests, nonces and 32-byte hash functions", "why_tests_cant": "a statement about distributions over all random choices after all possible issuance histories", "anchors": ["libursa/src/cl/issuer.rs: Issuer::new_credential_def, sign_credential", "libursa/src/cl/prover.rs: Prover::blind_credential_secrets, process_credential_signature, ProofBuilder::finalize", "libursa/src/cl/helpers.rs: generate_v_prime_prime"]}
{"id": "C191", "title": "Predicate proofs are sound", "statement": "Two answers to one set of predicate commitments, for different challenges, that make the verifier recompute the same values either show that the hidden number used in the predicate (the difference of the two answers divided by the difference of the challenges) really satisfies the predicate (>=, >, <=, <, as stated in the request), or give explicit exponents of a non-trivial relation between the issuer's Z and S.", "quantifier": "all issuer keys made of invertible numbers, all predicates and bounds, all pairs of proofs and challenges, both overflow modes", "why_tests_cant": "a statement about every cheating prover: all numbers it can send", "anchors": ["libursa/src/cl/verifier.rs: _verify_ne_predicate", "libursa/src/cl/helpers.rs: calc_tne, calc_tge", "libursa/src/cl/mod.rs: Predicate::get_delta_prime"]}
{"id": "C192", "title": "Whole presentations are sound", "statement": "If a prover gets two presentations with the same commitments accepted for one list of requests, the verifier recomputing the same values for both and the challenges being different, then for every requested credential at once: the issuer's signature equation holds, raised to the difference of the challenges, for the revealed values and for explicit hidden exponents; every requested predicate is proved as in C191; a non-revocation part, if there is one, yields a credential that is authentic for the given accumulator; and each common attribute has one pair of answers in all credentials.", "quantifier": "all numbers of credentials, requests, keys, hash functions, nonces, accepted pairs of presentations; encodings of the curve groups injective", "why_tests_cant": "a statement about every cheating prover", "anchors": ["libursa/src/cl/verifier.rs: ProofVerifier::verify, _verify_primary_proof, _verify_equality, _verify_ne_predicate, _verify_non_revocation_proof", "libursa/src/cl/hash.rs: get_hash_as_int"]}
{"id": "C193", "title": "Deltas rebuilt from registry snapshots", "statement": "A delta rebuilt with `RevocationRegistryDelta::from_parts` from two snapshots of a registry (accumulators and sets of issued indices at two moments of a legal history) equals the delta obtained by merging all deltas published in between; a witness updated with it equals the witness updated with the published deltas one by one.", "quantifier": "all registry sizes, issuance modes, legal histories and pairs of moments, all holders", "why_tests_cant": "all histories of issuer calls", "anchors": ["libursa/src/cl/mod.rs: RevocationRegistryDelta::from_parts, merge, Witness::update"]}
{"id": "C194", "title": "A verifier of presentations does not crash on proofs", "statement": "`ProofVerifier::verify` returns (`Ok` or an error) for every proof a holder can send and every nonce: it never panics, provided the issuers' moduli are not zero and - in builds with overflow checks - the verifier itself did not ask for a predicate `> i32::MAX` or `< i32::MIN`. Both provisos are needed.", "quantifier": "all proofs (maps with missing or further entries, any numbers), requests, keys, nonces, common attributes, iteration orders, overflow modes", "why_tests_cant": "Malformed proofs are an unbounded set; unit tests verify proofs made by the prover.", "anchors": ["libursa/src/cl/verifier.rs: ProofVerifier::verify, _verify_equality, _verify_ne_predicate", "libursa/src/cl/helpers.rs: calc_teq, calc_tne", "libursa/src/bn/rust.rs: mod_exp, inverse"]}
{"id": "C195", "title": "A holder does not crash on messages of issuers and verifiers", "statement": "`blind_credential_secrets` returns for every key, key correctness proof and nonce; afterwards `process_credential_signature` returns for every answer of the issuer; `add_sub_proof_request` returns for every request of a verifier (in builds with overflow checks: if the differences between attributes and bounds fit i32; otherwise a verifier can crash the holder with a true predicate), and `finalize` returns for every builder that can be made.", "quantifier": "all keys, key proofs, signatures, requests, sequences of builder calls, nonces, overflow modes", "why_tests_cant": "Messages of a malicious issuer or verifier are an unbounded set; so are call sequences.", "anchors": ["libursa/src/cl/prover.rs: blind_credential_secrets, process_credential_signature, ProofBuilder::add_sub_proof_request, ProofBuilder::finalize"]}
{"id": "C196", "title": "A failed add_sub_proof_request leaves the proof builder as it was", "statement": "If `ProofBuilder::add_sub_proof_request` fails, the builder is as before the call, so that the holder may go on with other credentials. (False of the code when revocation data is given: the commitments of the non-revocation part stay in the builder, and every proof built from it afterwards is rejected.)", "quantifier": "all builders, credentials, requests, random values, overflow modes, later calls, nonces", "why_tests_cant": "all failing calls and continuations; tests drop the builder after an error", "anchors": ["libursa/src/cl/prover.rs: ProofBuilder::add_sub_proof_request, finalize", "libursa/src/cl/verifier.rs: ProofVerifier::verify"]}
{"id": "C197", "title": "Presentations with non-revocation leak nothing beyond the context", "statement": "Two sets of credentials that agree in what a verifier asks for (issuers, requests without predicates, revealed values, registries) and, where shown with a proof of non-revocation, in their context, give presentations whose distributions are statistically close (bound ((k+1)|K|+9k)/2^79), also over many adaptively chosen presentations. With C188 (the context can be computed from such a presentation) this says exactly what a proof of non-revocation gives away.", "quantifier": "all credential sets (signatures, revocation credentials, indices, witnesses, hidden attributes, link secrets), requests without predicates, hash functions with 32-byte results, tests of an unbounded observer, numbers of presentations", "why_tests_cant": "a statement about probabilities over all random values and all observers", "anchors": ["libursa/src/cl/prover.rs: ProofBuilder::add_sub_proof_request, _init_non_revocation_proof, _gen_c_list_params, _gen_tau_list_params, _finalize_non_revocation_proof"]}
{"id": "C198", "title": "Accepted proofs of knowledge come from provers who know", "statement": "With challenges from a random oracle, a prover that is accepted with probability e after at most q questions can be run twice (same coins, oracle drawn anew from the verifier's question on) so that, with probability at least e^2/(q+1) - e/|F|, the witness is computed from the two outputs: the opening of a vector commitment (verify_complete_proof), the hidden messages and the blinding factor of an accepted blind-signature context (and what the issuer signs is then a signature on them), a BBS+ signature on messages containing revealed values fixed in advance, a PS signature on messages containing the revealed values the prover chose.", "quantifier": "all provers (any coins, any adaptive questions, any number q), keys, bases, message counts, nonces, revealed sets, groups with a bilinear pairing and finite scalar fields", "why_tests_cant": "a statement about the probability over all random functions and about every possible prover", "anchors": ["libzmix/src/commitments/pok_vc.rs: verify_complete_proof", "libzmix/bbs/src/lib.rs: BlindSignatureContext::verify", "libzmix/bbs/src/issuer.rs: blind_sign", "libzmix/bbs/src/verifier.rs: verify_signature_pok", "libzmix/src/signatures/ps/pok_sig.rs: verify, get_bytes_for_challenge"]}
{"id": "C199", "title": "Accepted attribute tokens come from holders of delegated credentials", "statement": "With challenges from a random oracle, a holder whose tokens (of a shape the verifier fixes: lengths and revealed indices) are accepted with probability e after at most q questions can be run twice so that, with probability at least e^2/(q+1) - e/|F|, a valid chain of exactly L links from the root's key with the revealed attributes, and the secret key of its last member, are computed from the two outputs.", "quantifier": "all holders (any coins, any adaptive questions), chain lengths, revealed sets, root keys, setup parameters, messages, encodings, groups with a bilinear pairing and finite scalar fields", "why_tests_cant": "a statement about the probability over all random functions and about every possible holder", "anchors": ["libzmix/src/signatures/delg_cred_cdd/attribute_token.rs: gen_challenge, reconstruct_commitment"]}
{"id": "C200", "title": "Forging BLS (multi-)signatures is as hard as the Diffie-Hellman problem", "statement": "With hash functions that are random functions to the non-zero points: whoever, given a public key, hash values, signatures on messages of its choice and the key's proof of possession, wins with probability e after at most q questions - by a multi-signature on a message never signed, for that key and any other keys all with accepted proofs of possession - solves, run without the secret key, the Diffie-Hellman problem (P, xP, Q, x gen -> xQ) with probability at least e/(q+1). Both implementations; a plain signature is the case of no other keys.", "quantifier": "all forgers (any coins, any adaptive questions), secret keys, message and key lengths, numbers and positions of other signers, contexts, pairings", "why_tests_cant": "a statement about every possible attacker and about probabilities over all random functions", "anchors": ["libursa/src/bls/mod.rs: sign, verify, verify_multi_sig, ProofOfPossession, verify_proof_of_posession", "libursa/src/signatures/bls.rs: Signature::new, verify_no_rk, ProofOfPossession::verify"]}
{"id": "C201", "title": "Forging Ed25519 signatures is as hard as finding discrete logarithms", "statement": "With SHA-512 a random function: whoever, given the public key of a key pair generated from a random secret, hash values and signatures of messages of its choice, outputs with probability e after at most q questions a message never signed and a signature that verification accepts, yields, run twice without the private key, the discrete logarithm of the public key with probability at least (e - h)^2/(q+1) - (w+1)/2^512, where h = (2q+3)/2^256 + (q l + w)/2^512 and w = 2^512/l + 1 for the order l of the base point. In particular the deterministic nonces and the private scalar, both hashes of the same secret, and the reduction of 512-bit hashes modulo the order cost no more than h.", "quantifier": "all forgers (any coins, any adaptive questions), bounds on the lengths of messages and hashed strings, groups with a base point of prime order, point encodings", "why_tests_cant": "a statement about every possible attacker and about probabilities over all random functions and secrets", "anchors": ["libursa/src/signatures/ed25519.rs: keypair, sign, verify"]}
{"id": "C202", "title": "The challenges of a Bulletproof bind the commitments and everything sent before them", "statement": "Every challenge of a constraint-system proof (y, z, u, x, w and those of the rounds of the inner product argument) is the hash of a string that determines everything the prover sent before it: the commitments of the session, the first messages and those of the second phase, the polynomial commitments, the three scalars, the number of generators and the pairs of points of the rounds so far. Different challenges are hashes of different strings, whatever was sent.", "quantifier": "all sessions (any gadgets, any second-phase callbacks), transcripts, proofs, hash functions", "why_tests_cant": "a statement about pairs of arbitrary proofs and sessions: a missing or ambiguous message cannot be seen in an honest run", "anchors": ["libzmix/bulletproofs_amcl/src/transcript.rs: commit_point, commit_scalar, challenge_scalar, r1cs_1phase_domain_sep", "libzmix/bulletproofs_amcl/src/r1cs/verifier.rs: commit, verify, create_randomized_constraints", "libzmix/bulletproofs_amcl/src/ipp.rs: verification_scalars"]}
{"id": "C203", "title": "The public value that a Bulletproof is about has to be chosen before the proof", "statement": "The challenges of a proof bind the public values of the statement too: nobody can make a proof first and find out afterwards for which image of MiMC or Poseidon, or for which root of a Merkle tree, it is accepted; an accepted proof for an image means that the committed values have that image.", "quantifier": "all hash functions, generators, committed values, blindings, constants, gadgets ending in the comparison with a public value", "why_tests_cant": "an attack that needs a special prover; an honest run cannot show it", "anchors": ["libzmix/bulletproofs_amcl/src/r1cs/gadgets/mimc.rs: verify_mimc_preimage, verify_knowledge_of_preimage_of_mimc", "libzmix/bulletproofs_amcl/src/r1cs/gadgets/poseidon_hash.rs: verify_knowledge_of_preimage_of_Poseidon_2", "libzmix/bulletproofs_amcl/src/r1cs/gadgets/sparse_merkle_tree_4_ary.rs: verify_leaf_inclusion_4_ary_merkle_tree", "libzmix/bulletproofs_amcl/src/r1cs/verifier.rs: Verifier::new, verify"]}
{"id": "C204", "title": "Primary credentials cannot be forged", "statement": "Whoever sees a public key and gets credentials for values of its choice, one after the other, and then outputs a credential with new attribute values (or a new credential context) that passes the check of holders, takes roots modulo the issuer's number: a reduction that uses only public numbers turns it into an algorithm which, given a random element u, outputs w and f > 1 with w^f = u, with nearly the same probability divided by the number of issued credentials plus one.", "quantifier": "all adaptive forgers, attribute names, numbers of orders, safe primes, exponents of the prescribed range", "why_tests_cant": "a statement about all forgers and a probability over keys and random numbers", "anchors": ["libursa/src/cl/issuer.rs: _new_credential_primary_keys, _new_primary_credential, _sign_primary_credential", "libursa/src/cl/prover.rs: _check_signature_correctness_proof, _generate_blinded_primary_credential_secrets_factors", "libursa/src/cl/helpers.rs: gen_x, generate_v_prime_prime"]}
{"id": "C205", "title": "A revealed value is the signed value", "statement": "The value of an attribute revealed in an accepted presentation that was made with the library from a credential is the value the issuer signed, not another one.", "quantifier": "all keys, credentials, attribute values, requests, random numbers, nonces, hash functions", "why_tests_cant": "an attack on the algebra of the credential; honest runs do not show it", "anchors": ["libursa/src/cl/verifier.rs: _verify_equality", "libursa/src/cl/prover.rs: _init_eq_proof, _finalize_eq_proof, add_sub_proof_request", "libursa/src/cl/helpers.rs: calc_teq"]}
{"id": "C206", "title": "Credentials of different holders cannot be shown together", "statement": "If the verifier asks for a common attribute (the master secret), then credentials with different values of that attribute are not accepted in one presentation, even if their holders work together.", "quantifier": "all lists of credentials, keys, values, requests, random numbers, nonces, hash functions", "why_tests_cant": "an attack on the algebra of the credential; tests only show honest presentations", "anchors": ["libursa/src/cl/verifier.rs: add_common_attribute, verify, _verify_equality", "libursa/src/cl/prover.rs: add_common_attribute, add_sub_proof_request, finalize"]}
{"id": "C207", "title": "Tokens of the wrong shape are refused, with the right error", "statement": "A verifier of attribute tokens (with or without precomputed values) refuses every message in which a number of commitments, revealed sets, blinded signatures or answers does not belong to the number of levels; the error tells the first wrong number, the expected number ((L+1)/2 odd and L/2 even levels) and the given one; messages with the right numbers pass this check.", "quantifier": "all numbers of levels, commitments and responses of any shape", "why_tests_cant": "must hold for every combination of lengths", "anchors": ["libzmix/src/signatures/delg_cred_cdd/attribute_token.rs: AttributeTokenComm::validate, AttributeTokenResp::validate, reconstruct_commitment, reconstruct_commitment_with_precomputed_vals"]}
{"id": "C208", "title": "BBS+ signatures cannot be forged", "statement": "Whoever sees a fresh BBS+ public key and the signatures of the signer on messages of its own choice, one after the other, direct (Signature::new, also on short lists) or blind (blind_sign on commitments whose content it knows), cannot come up with a signature and messages that Signature::verify accepts other than the signatures it was given for the messages they were given for (strong unforgeability): every such forger with success probability \u03b5 after q requests yields, with concrete reductions, solutions (c, (x+c)^-1 g1) of the strong Diffie-Hellman problem for g1, x g1, \u2026, x^(q+1) g1, x g2 with probabilities that add up to at least \u03b5 - (q+1)(q+2)/p.", "quantifier": "all forgers (every adaptive strategy), all numbers of messages and of requests, all pairings of prime order", "why_tests_cant": "quantifies over all adversaries and is a statement about probabilities", "anchors": ["libzmix/bbs/src/signature.rs: Signature::new, Signature::verify, BlindSignature::new, to_unblinded", "libzmix/bbs/src/issuer.rs: blind_sign", "libzmix/bbs/src/keys.rs: generate"]}
{"id": "C209", "title": "Published PS keys do not let anybody sign", "statement": "Whoever holds what a PS signer publishes, the Verkey and the BlindingKey that users need to ask for blind signatures, but not the Sigkey, cannot make signatures that Signature::verify accepts on messages that were not signed. (False of the code: BlindingKey::new puts X = x g, with which everybody computes u g and u (X + \u03a3 m_i Y_i), exactly what Signature::new answers, for all messages.)", "quantifier": "all keys, all lists of messages, all random numbers", "why_tests_cant": "quantifies over all keys and messages, and (as a positive statement) over all adversaries", "anchors": ["libzmix/src/signatures/ps/blind_signature.rs: BlindingKey::new", "libzmix/src/signatures/ps/signature.rs: Signature::new, Signature::verify"]}
{"id": "C210", "title": "PS signatures cannot be forged without X of the blinding key", "statement": "Whoever sees a fresh PS verification key and only the Y part of the blinding key, and the answers of the signer to orders of its own choice, one after the other, direct (Signature::new) or blind (BlindSignature::new on commitments whose content it knows), cannot come up with a signature that Signature::verify accepts on messages that were not signed: every such forger with success probability \u03b5 after q orders yields, with a concrete reduction, a solver of the PS problem with one message (given x g~, y g~, y g and an oracle for (h, (x + m y) h), output such a pair for a new m) with success probability at least \u03b5 - q/p.", "quantifier": "all forgers (every adaptive strategy), all numbers of messages and of orders, all pairings of prime order", "why_tests_cant": "quantifies over all adversaries and is a statement about probabilities", "anchors": ["libzmix/src/signatures/ps/keys.rs: keygen", "libzmix/src/signatures/ps/signature.rs: Signature::new, Signature::verify", "libzmix/src/signatures/ps/blind_signature.rs: BlindSignature::new, BlindingKey::new"]}
{"id": "C211", "title": "Aggregated BLS signatures with key coefficients cannot be forged with rogue keys", "statement": "Whoever sees a public key pk and has messages of its own choice signed with it (Signature::new or new_with_rk_mitigation), and then picks any other keys as it likes, without proofs of possession and depending on pk, cannot come up with an aggregated signature that AggregatedSignature::verify accepts, on a message that was not signed, under the AggregatedPublicKey of a list of keys that contains pk: every such forger with success probability \u03b5 after q questions yields a concrete solver of the Diffie-Hellman problem (from P, xP, Q and pk compute xQ) with success probability at least (\u03b5/(q+1))\u00b2/(q+1) - (\u03b5/(q+1))/p.", "quantifier": "all forgers (every adaptive strategy, every list of keys), all messages and contexts, all pairings of prime order p", "why_tests_cant": "quantifies over all adversaries and is a statement about probabilities", "anchors": ["libursa/src/signatures/bls.rs: AggregatedPublicKey::new, Signature::new_with_rk_mitigation, AggregatedSignature::verify"]}
{"id": "C212", "title": "BBS+ presentations cannot be forged", "statement": "Holders have messages of their own choice signed, directly or blindly, one order after the other, and may put together all they get. Then a verifier sends a fresh nonce, and they answer with a presentation, asking the hash function as often as they like. They cannot make a presentation that verify_signature_pok accepts if no list of messages that was signed has the revealed values at the revealed places: every such strategy with success probability \u03b5 after q orders and h questions to the hash function yields a concrete solver of the strong Diffie-Hellman problem with success probability at least \u03b5\u00b2/(h+1) - \u03b5/p - (q+1)(q+2)/p.", "quantifier": "all strategies of holders (adaptive, in collusion), all numbers of messages, orders and questions, all choices of revealed messages fixed before the hash function is asked, all pairings of prime order", "why_tests_cant": "quantifies over all adversaries and is a statement about probabilities", "anchors": ["libzmix/bbs/src/issuer.rs: blind_sign", "libzmix/bbs/src/signature.rs: Signature::new", "libzmix/bbs/src/verifier.rs: verify_signature_pok"]}
{"id": "C213", "title": "Proofs of PS signatures cannot be forged without X of the blinding key", "statement": "Whoever sees a PS verification key and the Y part of the blinding key only, and has messages of its own choice signed, directly or blindly, cannot afterwards make a proof of knowledge that PoKOfSignatureProof::verify accepts (with the challenge hashed from get_bytes_for_challenge) if no list of messages that was signed has the revealed values at the revealed places, even if it chooses what to reveal after it has seen the challenge: every such strategy with success probability \u03b5 after q orders and h questions to the hash function yields a concrete solver of the PS problem with one message (C210) with success probability at least \u03b5\u00b2/(h+1) - \u03b5/p - q/p.", "quantifier": "all strategies (adaptive, in collusion), all numbers of messages, orders and questions, all pairings of prime order", "why_tests_cant": "quantifies over all adversaries and is a statement about probabilities", "anchors": ["libzmix/src/signatures/ps/pok_sig.rs: PoKOfSignatureProof::verify, get_bytes_for_challenge", "libzmix/src/signatures/ps/signature.rs: Signature::new", "libzmix/src/signatures/ps/blind_signature.rs: BlindSignature::new"]}
{"id": "C214", "title": "Ciphertexts of AES-CBC-HMAC cannot be forged", "statement": "Whoever does not know the key and uses encrypt_easy and decrypt_easy of AES-CBC-HMAC adaptively, with associated data of one length and at most d decryptions, gets decrypt_easy to accept a pair of associated data and ciphertext that encrypt_easy has not produced with probability at most d/256^t (t the length of the tag: 32 or 64), HMAC being a random function; whatever the MAC, every such pair carries a valid tag of a string that no encryption has had tagged before.", "quantifier": "all strategies, all numbers of orders, all messages, nonces and keys, all block ciphers", "why_tests_cant": "quantifies over all adversaries and is a statement about probabilities", "anchors": ["libursa/src/encryption/symm/aescbc.rs: encrypt, decrypt", "libursa/src/encryption/symm/mod.rs: encrypt_easy, decrypt_easy"]}
{"id": "C215", "title": "Ciphertexts of AES-CBC-HMAC hide the messages", "statement": "Whoever chooses pairs of messages of equal length adaptively and sees the encrypt_easy of all first or of all second ones, s blocks in total, draws every conclusion equally often in both cases up to 2s(s-1)/2^128, AES being a random permutation of the blocks and the nonces being random.", "quantifier": "all strategies and conclusions, all numbers and lengths of messages, all associated data, all MACs", "why_tests_cant": "quantifies over all adversaries and is a statement about probabilities", "anchors": ["libursa/src/encryption/symm/aescbc.rs: encrypt", "libursa/src/encryption/symm/mod.rs: encrypt_easy, nonce_gen"]}
{"id": "C216", "title": "AES-CBC-HMAC hides the messages from someone who can have other ciphertexts decrypted", "statement": "Whoever chooses pairs of messages of equal length and ciphertexts to be decrypted (other than those made for them) adaptively, with associated data of one length, s blocks to encrypt and d decryptions in total, draws every conclusion equally often whether all first or all second messages are encrypted, up to 2s(s-1)/2^128 + 2d/256^t.  With associated data of different lengths this fails with certainty: two orders reveal the message without its first 16 bytes.", "quantifier": "all strategies and conclusions, all numbers and lengths of messages", "why_tests_cant": "quantifies over all adversaries and is a statement about probabilities", "anchors": ["libursa/src/encryption/symm/aescbc.rs: encrypt, decrypt", "libursa/src/encryption/symm/mod.rs: encrypt_easy, decrypt_easy, nonce_gen"]}
{"id": "C217", "title": "A Camenisch-Shoup ciphertext hides the messages from whoever cannot tell powers of g from blinded ones", "statement": "For keys made from safe primes p, q (n = pq) with exponents and r drawn as the code draws them: whoever sees the public key, names a label and two equally long lists of messages and sees the encryption of one of them, says yes to the first list as often as to the second one, up to the advantages of two explicit solvers (which tell g^r from g^r (n+1)^s, given n and g) and (k+1)(p+q)/n for a key for k messages.  Who knows the factors tells all messages that differ modulo n apart, with certainty.", "quantifier": "all keys of this form, all adversaries, lists, labels and hash functions", "why_tests_cant": "quantifies over all adversaries and is a statement about probabilities", "anchors": ["libzmix/src/verifiable_encryption/cs_verifiable_encryption.rs: CSKeypair::new, encrypt, compute_e, compute_v, rand_for_enc"]}
{"id": "C218", "title": "The errors of verifiable decryption do not help to read other ciphertexts", "statement": "Whoever may have ciphertexts decrypted, other than a given one, and sees the messages or the text of the error, does not learn the messages of the given one.", "quantifier": "all keys, messages, labels and hash functions, all ways of asking", "why_tests_cant": "what an adversary can compute from the texts of errors; all keys and messages", "anchors": ["libzmix/src/verifiable_encryption/cs_verifiable_encryption.rs: decrypt (the text \"u^2 != v^2, {:?} != {:?}\")"]}
{"id": "C219", "title": "Verifiable encryption hides messages even with decryptions of other ciphertexts", "statement": "Whoever sees the public key, may have ciphertexts of their choice decrypted before and after, under any labels, and learns the messages or which check failed, but not the numbers in the texts of errors, cannot tell encryptions of two lists of its choice apart, unless it solves the composite residuosity problem; the ciphertexts asked for afterwards must have another hash value.  If only the ciphertext itself is refused, one question tells the lists apart.", "quantifier": "all keys of safe primes, all ways of asking and guessing, all numbers of questions, all hash functions with values below the primes", "why_tests_cant": "probabilities over keys and random values, and all adaptive strategies", "anchors": ["libzmix/src/verifiable_encryption/cs_verifiable_encryption.rs: CSKeypair::new, encrypt, decrypt, hash"]}
{"id": "C220", "title": "Revocation credentials cannot be forged", "statement": "Whoever may ask the issuer for revocation credentials for places, contexts and secrets of its choice, and for revocations, recoveries and updates of the registry in between, seeing key, registry, tails and deltas, cannot put forward a credential for a place of the registry that the holder's check accepts and that is none of the credentials it got (not even one with another context, secret, place or random number), unless it solves the strong Diffie-Hellman problem.", "quantifier": "all registries, all ways of asking and forging, all numbers and orders of calls, all bilinear groups", "why_tests_cant": "a probability over keys and random values, and all adaptive strategies", "anchors": ["libursa/src/cl/issuer.rs: _new_non_revocation_credential, _new_credential_revocation_keys, revoke_credential, recovery_credential, update_revocation_registry", "libursa/src/cl/prover.rs: _process_non_revocation_credential, _generate_blinded_revocation_credential_secrets, _test_witness_signature"]}
{"id": "C221", "title": "The handle of the ECDSA scheme can be serialised", "statement": "Serialising an EcdsaSecp256k1Sha256 value returns a document, from which deserialising gives the handle back.", "quantifier": "all serde formats", "why_tests_cant": "a call that does not return gives no answer to test, and all formats are meant", "anchors": ["libursa/src/signatures/secp256k1.rs: Serialize for EcdsaSecp256k1Sha256, Deserialize for EcdsaSecp256k1Sha256", "libursa/src/utils/macros.rs: impl_bytearray"]}
{"id": "C222", "title": "Feldman sharing reveals the secret only as a point", "statement": "Fewer than threshold holders learn from the published commitments and their shares nothing that they could not have computed from s*g: every test on what they see says yes as often as on a view made from s*g and random numbers; so finding a random secret is as hard as finding a discrete logarithm.", "quantifier": "all schemes, all coalitions of fewer than threshold holders, all secrets, all tests and all ways of finding", "why_tests_cant": "a probability over the coefficients, and all strategies", "anchors": ["ursa_sharing/src/feldman.rs: Scheme::split_secret", "ursa_sharing/src/shamir.rs: get_shares_and_polynomial"]}
{"id": "C223", "title": "Pedersen sharing hides the secret from fewer than threshold holders", "statement": "Whatever their means, fewer than threshold holders see commitments, shares and blinding shares that have the same distribution for all secrets, up to 1/|F|; the bound is exact, because a blinding of zero is refused: the first commitment is never s*g.", "quantifier": "all schemes, all coalitions of fewer than threshold holders, all pairs of secrets, all tests", "why_tests_cant": "a probability over coefficients and blinding, and tests of unbounded power", "anchors": ["ursa_sharing/src/pedersen.rs: Scheme::split_secret", "ursa_sharing/src/shamir.rs: get_shares_and_polynomial"]}
{"id": "C224", "title": "libursa Shamir: fewer than threshold shares tell nothing", "statement": "For a modulus that is a prime or a prime power, as the documentation asks, and larger than the number of shares, the shares of fewer than threshold holders have the same distribution for all secrets.", "quantifier": "all moduli, thresholds, totals, coalitions and pairs of secrets, all tests on the shares", "why_tests_cant": "a probability over the coefficients and tests of unbounded power", "anchors": ["libursa/src/sharing/shamir.rs: split_secret, Polynomial::new, Polynomial::evaluate"]}
{"id": "C225", "title": "A revocation credential is issued for the context of the holder's credential", "statement": "The revocation credential that sign_credential_with_revoc returns serves only the context that the issuer computed from the holder's identifier and the place: whatever the holder sends, it cannot obtain a revocation credential for another context.", "quantifier": "all keys, registries, places, identifiers, contexts, blinded secrets and histories", "why_tests_cant": "the claim is about every value a holder may send", "anchors": ["libursa/src/cl/issuer.rs: sign_credential_with_revoc, _new_non_revocation_credential, _check_blinded_credential_secrets_correctness_proof", "libursa/src/cl/prover.rs: _generate_blinded_revocation_credential_secrets, _process_non_revocation_credential, _init_non_revocation_proof"]}
{"id": "C226", "title": "Shamir and Pedersen sharings hide the secret from attackers that choose the holders as they go", "statement": "An attacker that takes over fewer than threshold holders one after the other, choosing each when it knows the commitments and all shares taken so far, learns nothing about the secret of a Shamir sharing, and of a Pedersen sharing nothing beyond what the refusal of a zero blinding gives away (probability 1/|F|).", "quantifier": "all schemes, pairs of non-zero secrets, strategies of the attacker and tests on what it has seen", "why_tests_cant": "a probability over the coins, for strategies of unbounded power", "anchors": ["ursa_sharing/src/shamir.rs: split_secret, get_shares_and_polynomial", "ursa_sharing/src/pedersen.rs: split_secret", "ursa_sharing/src/lib.rs: Polynomial::new, Polynomial::evaluate"]}
{"id": "C227", "title": "A session key looks random to whoever cannot compute the common point", "statement": "With SHA-256 a random function: an eavesdropper that sees the two public keys of an exchange (X25519 with generated keys, or secp256k1 in the native build with random private keys) and asks at most q hash values tells the session key from 32 random bytes with an advantage of at most q times the probability that a solver, which has the public keys only, finds the common point.", "quantifier": "all eavesdroppers, numbers of questions, groups and contracts of the curve libraries", "why_tests_cant": "a probability over keys and hash functions, against every strategy", "anchors": ["libursa/src/kex/x25519.rs: keypair, compute_shared_secret", "libursa/src/kex/secp256k1.rs: keypair, compute_shared_secret"]}
{"id": "C228", "title": "A blind request hides the messages from the signer", "statement": "Whatever a BBS+ signer computes from a blind request, for any two lists of messages it comes to any given conclusion with the same probability; if it also sees whether the holder accepts its reply, which may be anything, then for two lists that agree on the messages it knows the probabilities differ by at most those of its reply hitting the negative of the holder's blinding.", "quantifier": "all signers, keys whose h0 generates the group, hash functions, numbers of messages, sets of hidden messages, nonces and replies", "why_tests_cant": "a probability over the holder's random numbers, against every strategy", "anchors": ["libzmix/bbs/src/prover.rs: new_blind_signature_context, complete_signature", "libzmix/bbs/src/pok_vc.rs: finish, gen_proof", "libzmix/bbs/src/signature.rs: get_unblinded_signature, verify"]}
{"id": "C229", "title": "A proof of knowledge of a committed vector says nothing about the values", "statement": "A proof made by commit, finish, gen_challenge and gen_proof: for two lists of values with the same commitment every test on the proof says yes with the same probability, whatever the hash function; with a random function for the hash, whatever can be concluded from the proof and all hash values can be concluded, with the same probability, from a proof made from the commitment alone; and if one base generates the group and its value is drawn at random, as in requests for blind signatures, commitment and proof say nothing about the other values.", "quantifier": "all groups, bases, values, extra strings, hash functions and tests", "why_tests_cant": "a probability over the blindings and the hash function, against every strategy", "anchors": ["libzmix/src/commitments/pok_vc.rs: commit, finish, gen_challenge, gen_proof", "libzmix/bbs/src/pok_vc.rs"]}
{"id": "C230", "title": "Nobody can tell which signature PS or BBS+ presentations come from", "statement": "For any number of presentations and any two families of valid signatures whose messages agree where they are shown, every test on all presentations says yes with the same probability (PS), or with probabilities that differ by at most 2N/p (BBS+, where r2 is drawn from the non-zero numbers). The challenge is made by hashing, with any hash function; the verifiers may know all keys and signatures. In particular it cannot be told whether two presentations come from one signature or from two.", "quantifier": "all keys, signatures, messages, numbers of presentations, sets of shown messages, nonces, claims, hash functions and tests", "why_tests_cant": "a probability over the random numbers of all presentations, against every strategy", "anchors": ["libzmix/src/signatures/ps/pok_sig.rs: PoKOfSignature::init, gen_proof", "libzmix/bbs/src/pok_sig.rs: PoKOfSignature::init, gen_proof", "libzmix/bbs/src/prover.rs: create_challenge_hash, generate_signature_pok"]}
{"id": "C231", "title": "The anonymity game: presentations do not tell two signatures apart, whatever is asked", "statement": "An observer asks for presentations one after the other; each time it chooses, from everything it has seen, two valid signatures with messages that agree where they are to be shown, what is shown, the claims and the nonce. A bit is drawn once and says whether it is always the first or always the second that is presented. The observer guesses the bit with probability exactly one half for PS signatures, and with a probability within N/p of one half for BBS+ signatures after N presentations.", "quantifier": "all keys, observers (with all keys and signatures in hand), numbers of presentations and hash functions", "why_tests_cant": "a probability over the random numbers of all presentations, against every adaptive strategy", "anchors": ["libzmix/src/signatures/ps/pok_sig.rs: PoKOfSignature::init, gen_proof", "libzmix/bbs/src/pok_sig.rs: PoKOfSignature::init, gen_proof", "libzmix/bbs/src/prover.rs: create_challenge_hash, generate_signature_pok"]}
{"id": "C232", "title": "The anonymity game for attribute tokens", "statement": "An observer asks for attribute tokens one after the other; each time it chooses, from everything it has seen, two holders of valid credential chains that look the same where attributes are to be revealed (as many levels, as many attributes at each, the same revealed values), the revealed attributes and the nonce. A bit is drawn once and says whether it is always the first or always the second holder that makes the token: commits, hashes the commitment with the root's key and the nonce, and responds. The observer guesses the bit with probability exactly one half.", "quantifier": "all set-up parameters of prime order, root keys, chains of any lengths, holders' keys, observers, numbers of tokens and hash functions", "why_tests_cant": "a probability over the random numbers of all tokens, against every adaptive strategy", "anchors": ["libzmix/src/signatures/delg_cred_cdd/attribute_token.rs: commitment, gen_challenge, response"]}
{"id": "C233", "title": "PS presentations are zero-knowledge", "statement": "With a random function for the hash, everything that can be concluded from a presentation of a valid signature together with the whole hash function can be concluded, with the same probability, from a presentation made from the public key and the revealed messages alone, when the hash function is given the drawn challenge at the string that is hashed. So a presentation gives no information on the signature, on hidden messages, or that helps to present elsewhere.", "quantifier": "all keys, signatures, messages, sets of revealed messages, nonces, encodings and tests (unbounded observers)", "why_tests_cant": "a probability over the random numbers and the hash function, against every strategy", "anchors": ["libzmix/src/signatures/ps/pok_sig.rs: PoKOfSignature::init, gen_proof, get_bytes_for_challenge"]}
{"id": "C234", "title": "an issuer cannot tell which of the credentials it issued blindly is presented", "statement": "Two holders ask an issuer for blind signatures (BBS+ or PS). The issuer sees both requests (commitments with proofs), answers as it likes, learns whether the holders accept, then chooses again and again what is shown to it by one of them, who was drawn at random. Whatever it does, it guesses which holder that is with probability one half: exactly for PS, and up to N/p for N presentations with BBS+ (the chance that a drawn factor is zero).", "quantifier": "all issuers (unbounded, adaptive), messages, hidden indices, numbers of presentations and well-formed keys", "why_tests_cant": "a probability over all random numbers of holders and presentations, against every strategy of the issuer", "anchors": ["libzmix/bbs/src/prover.rs: new_blind_signature_context, complete_signature, commit_signature_pok, generate_signature_pok", "libzmix/src/signatures/ps/blind_signature.rs: unblind", "libzmix/src/signatures/ps/pok_sig.rs: PoKOfSignature::init, gen_proof"]}
{"id": "C235", "title": "whatever can be seen of BBS+ and PS presentations the issuer could have made itself", "statement": "An observer asks, again and again and depending on what it has seen, for presentations of BBS+ or PS signatures and messages of its choice. If in place of each presentation the issuer signs the shown messages, with others of its choice (zeros for BBS+) for the hidden ones, and presents that, any test of all that has been seen says yes with the same probability: exactly for PS, up to 2N/p for N presentations with BBS+. So presentations give the issuer and all who work with it no information on hidden messages or signatures.", "quantifier": "all adaptive observers and tests (unbounded), numbers of presentations, well-formed keys, signatures, messages and choices of what is shown", "why_tests_cant": "a distance of probability distributions over all random numbers, against every strategy", "anchors": ["libzmix/bbs/src/signature.rs: Signature::new", "libzmix/bbs/src/prover.rs: commit_signature_pok, generate_signature_pok", "libzmix/bbs/src/pok_sig.rs: PoKOfSignature::init, gen_proof", "libzmix/src/signatures/ps/signature.rs: Signature::new", "libzmix/src/signatures/ps/pok_sig.rs: PoKOfSignature::init, gen_proof"]}
{"id": "C236", "title": "BBS+ credentials shown together hide which credentials they are", "statement": "A holder shows any number of BBS+ credentials, of any issuers, in one presentation under one challenge. If another set of valid credentials has the same keys and the same messages where they are shown, any test of the whole presentation says yes with the same probability, up to 2K/p for K credentials. In particular nobody can tell whether two of the credentials have hidden messages in common or belong to one holder.", "quantifier": "all numbers of credentials and messages, well-formed keys, valid signatures, choices of shown messages, claims, nonces and tests (unbounded observers)", "why_tests_cant": "a distance of probability distributions over all random numbers, for all sets of credentials", "anchors": ["libzmix/bbs/src/prover.rs: commit_signature_pok, create_challenge_hash, generate_signature_pok", "libzmix/bbs/src/pok_sig.rs: PoKOfSignature::init, to_bytes, gen_proof"]}
{"id": "C237", "title": "showing that BBS+ credentials hold the same hidden message tells nothing else", "statement": "A holder shows any number of BBS+ credentials in one presentation and gives chosen hidden messages common blindings (external blindings), so that the verifier sees that they are equal. If another set of valid credentials has the same keys, the same shown messages, and equal messages in the same linked places, any test of the whole presentation says yes with the same probability, up to 2K/p for K credentials. So nothing is learnt about the linked messages but that they are equal.", "quantifier": "all numbers of credentials, messages and links, well-formed keys, valid signatures, choices of shown messages, claims, nonces and tests (unbounded observers)", "why_tests_cant": "a distance of probability distributions over all random numbers, for all sets of credentials", "anchors": ["libzmix/bbs/src/prover.rs: commit_signature_pok, create_challenge_hash, generate_signature_pok", "libzmix/bbs/src/pok_sig.rs: PoKOfSignature::init (HiddenMessage::ExternalBlinding)", "libzmix/bbs/src/messages.rs: HiddenMessage::ExternalBlinding"]}
{"id": "C238", "title": "what an external blinding that is used twice gives away", "statement": "If one external blinding hides the same message in two BBS+ presentations with different challenges, anybody computes that message from the two responses (get_resp_for_message). If it hides two messages under one challenge, anybody computes their difference. So the condition of C237 (a new common blinding for each hidden value and each presentation) cannot be dropped, and nothing in the library enforces it.", "quantifier": "all keys, signatures, message lists, places, random numbers and challenges", "why_tests_cant": "an exact algebraic statement on all presentations", "anchors": ["libzmix/bbs/src/pok_sig.rs: PoKOfSignature::init, gen_proof, get_resp_for_message", "libzmix/bbs/src/messages.rs: HiddenMessage::ExternalBlinding"]}
