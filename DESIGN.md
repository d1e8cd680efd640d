# Formal model of hyperledger/ursa in Lean 4 — design

## Method

Every module under `lean/Verif/` transcribes functions of `/repo` as total, computable Lean functions (comment above each
definition: file and lines modelled, simplifications).  Property theorems live in `lean/Verif/Props/*.lean`, one file per area,
next to `example`s that show a concrete non-trivial instance meets the hypotheses.  Auxiliary lemmas live next to the model.

Common conventions

* `Res ε α` has three outcomes `ok`, `err e`, `panic`.  A Rust `Result` maps to `ok`/`err`; slice indexing out of range,
  `unwrap` on `None`, `u32` underflow map to `panic`.
* Randomness (`rng`, `FieldElement::random`, `bn_rand` …) is an explicit argument; theorems quantify over it.
* Cryptographic primitives are parameters with the laws they satisfy as hypotheses: a field / module (the `Group`/`Field` traits,
  pairing groups written additively), a bilinear map, a hash function (arbitrary function), a block cipher / AEAD core
  (decrypt inverts encrypt), an HMAC (arbitrary function), a byte codec (decode inverts encode, fixed size).
  No hypothesis about hardness is made; nothing computational (unforgeability etc.) is claimed except special soundness
  statements, which are algebraic.
* Where the code violates a property a user relies on, the *negation* is proved for the model with a concrete witness, together with
  the strongest positive statement that does hold, under a name ending in `_partial`.

## Trusted base

Lean 4.33.0 kernel and Mathlib; axioms `propext`, `Classical.choice`, `Quot.sound` only (checked by vcheck and by
`#print axioms` during development).  The correspondence model <-> Rust source is by inspection (comments cite lines).
Not modelled: AMCL/pairing-plus curve arithmetic, OpenSSL internals, SHA/Blake/HKDF internals, AES/ChaCha cores, the text level
of serde_json, wasm-bindgen, logging, timing / zeroisation.  The C interface is modelled with handles and nullable pointers, not
with raw memory.

## Plan per property

C-numbers refer to `properties.jsonl`; exact theorem names per property are in `MANIFEST.json`.

| Prop | Model module | Code modelled | How |
|---|---|---|---|
| C01–C04 | `Sharing.Model` | libursa/src/sharing (shamir, feldman, pedersen, share codec) | generic field F, F-module R, codec; Lagrange interpolation by Mathlib `Lagrange`; validation by induction on the share list |
| C05–C08 | `Sharing.Model` | Feldman/Pedersen VSS | linear algebra over F; hiding by unique solvability |
| C09 | `Sharing.Model` | verifier (de)serialisation | byte-level model; negation for the recursive `to_bytes` and the non-advancing offset, partial positive statements |
| C10–C12 | `BN.Model` | libursa/src/bn/rust.rs | integers; extended Euclid loop invariant; well-founded recursion |
| C13–C14 | `BN.Shamir` | libursa/src/bn shamir | BigNumber Shamir mod p, transported to `ZMod p` |
| C15, C16, C49 | `CL.Helpers` | libursa/src/cl/helpers.rs, `Predicate` | bounded search + four-square theorem; i32 arithmetic with both overflow semantics |
| C17–C19, C31, C54–C60 | `CL.Primary` | libursa/src/cl issuer.rs, prover.rs (keys, blinding, signing, processing) | group of units mod n with integer exponents; Fiat–Shamir hash arbitrary |
| C20–C24, C52, C53, C61–C63 | `CL.Presentation` | prover.rs `ProofBuilder`, verifier.rs `ProofVerifier` | same; inversion of `verify`; negations by explicit adversarial proofs |
| C25–C30, C50 | `CL.Revocation` | revocation registry, tails, witnesses, deltas | registry histories as traces; module sums over finite sets; bilinear pairing |
| C51 | `CL.NonRevocProof` | non-revocation proof | module algebra, two-transcript extraction |
| C64 | `BN.Model` | remaining bn/rust.rs arithmetic | integers |
| C32–C35, C65–C70 | `BLS.Model` | libursa/src/bls, libursa/src/signatures/bls.rs | bilinear pairing, non-degenerate on the generator; batch verification by linear independence of exponents |
| C36–C38, C71–C74 | `Symm.Model` | libursa/src/encryption/symm | CBC and PKCS#7 written out over an arbitrary block permutation, MAC and AEAD cores by contract; length arithmetic; negations by explicit adversarial messages |
| C39–C45, C75–C81 | `BBS.Model`, `BBS.Wire` | libzmix/bbs (keys, signature, pok_sig, issuer, prover, verifier, byte formats) | F-modules G1, G2, GT, bilinear pairing; parsers over byte lists with panics as an outcome |
| C46–C47, C82–C86 | `PS.Model` | libzmix/src/signatures/ps (keys, signature, blind_signature, pok_sig) | same; negations for the response index, the element size of the parser and index panics |
| C87–C94 | `Groth.Model` | libzmix/src/signatures/delg_cred_cdd/groth_sig.rs, issuer.rs | both schemes by one generic model (the second with the flipped pairing); batch checks as polynomials in the draw; chains as two lists of links, honest chains as an inductive predicate |
| C95–C101 | `Groth.Token` | libzmix/src/signatures/delg_cred_cdd/attribute_token.rs | both parities of a level by one generic model; the state after each level in closed form (completeness), extraction per level (soundness), change of random values (zero knowledge); maps as lists in iteration order; `blindings_sigs` and serde not modelled |
| C102–C108 | `CS.Model` | libzmix/src/verifiable_encryption/cs_verifiable_encryption.rs | BigNumbers as in C01 ff.; the group of units modulo n² with the element 1+n in closed form; soundness by extraction from two transcripts with the exponent 2·n·p'·q' of the group (safe primes); the hash an arbitrary function of the hashed bytes; prime generation and random draws are arguments; serde not modelled |
| C109–C111 | `BP.Ipp` | libzmix/bulletproofs_amcl/src/transcript.rs, ipp.rs | F-module; a transcript is the list of operations on it, challenges an arbitrary function of it; completeness by induction over the rounds; soundness by an explicit extractor on the scalars of a tree of accepting proofs; the length conditions of the vector operations of amcl_wrapper as panics |
| C112–C115 | `BP.R1CS` | libzmix/bulletproofs_amcl/src/r1cs/{prover,verifier,linear_combination,proof}.rs, utils/vector_poly.rs | a session is a program tree (calls and continuations) run by a prover and by a verifier; agreement by simulation over programs; the verification equation is reduced to two gaps (`verifyRest_iff`); completeness from an identity of the degree 6 polynomial t; soundness by an extractor on the scalars of a tree of accepted proofs (Vandermonde inverses), which lists the relations that have to be trivial; random values are arbitrary functions; generators are arbitrary points; bytes of proofs are not modelled |
| C116–C121 | `BP.Gadgets` | libzmix/bulletproofs_amcl/src/r1cs/gadgets/{bound_check,non_zero,set_membership,set_membership_alt,set_non_membership,mimc}.rs and helper_constraints/{bit,positive_no,non_zero,vector_sum,mimc}.rs | every gadget is a program of C112's kind; soundness by a logic for what the verifier's constraints impose on every assignment (`Imposes`), completeness by one for what the prover's state satisfies (`Builds`) and one for equal calls (`Rel`); the `gen_proof_*`/`verify_proof_*` wrappers are `prove`/`verify` after the session; random values are arguments; `u64` subtraction panics on underflow |
| C122–C124 | `BP.Poseidon` | libzmix/bulletproofs_amcl/src/r1cs/gadgets/{poseidon_hash,helper_constraints/poseidon}.rs, r1cs/linear_combination.rs:50-67 | the rounds are a function of the S-box (`rounds f`) and their constraints a program of the S-box's calls (`roundsConstraints syn`); one induction shows what `syn` imposes carries over to the rounds. The cheating prover of C123 is the same program with other S-box calls. Parsing of the hexadecimal constants is not modelled (tables are parameters). C124: flattening is a fold of commuting updates |
| C125–C126 | `BP.Merkle` | libzmix/bulletproofs_amcl/src/r1cs/gadgets/{merkle_tree_hash,helper_constraints/sparse_merkle_tree_4_ary,helper_constraints/sparse_merkle_tree_8_ary}.rs, src/utils/hash_db.rs | specification: `rootOf` of a function from leaf numbers to leaves; invariant `Stored` (all nodes of the tree for each past version are in the database under their hashes), kept by `update` because the hash is injective on the nodes of the history. Binding by induction on the levels, from the root down. |
| C127–C128 | `BP.Merkle` (gadgets) | libzmix/bulletproofs_amcl/src/r1cs/gadgets/{sparse_merkle_tree_4_ary,sparse_merkle_tree_8_ary,merkle_tree_hash}.rs and helper_constraints/ | the multiplications of one level are shown to compute the list of siblings with the node inserted at a digit (`sel4_insert`, `sel8_insert`); the loop gives digits whose number is the index. The same loop for the prover gives completeness for every number of levels, which refutes C128. |
| C129–C134 | `FFI.Model`, `FFI.Table`, `FFI.Spec` | libursa/src/ffi/{bls,mod}.rs, libursa/src/ffi/cl/{mod,issuer,prover,verifier}.rs, libursa/src/utils/ctypes.rs, libursa/src/errors/mod.rs | every exported function is a row of a table (parameters, checking macros in order, boxes taken and written), executed by one interpreter `Sig.call` over a heap of typed objects with an explicit undefined outcome; a relation `Guards` matches macros with declarations and is checked for each row; the theorems are by induction over that relation and over runs. The content of the objects and what the library does with them is not modelled here. The exceptions of the code are listed in `FFI.Spec` and each is proved to fail |
| C135–C136 | `CL.TailsAccess` | libursa/src/ffi/cl/mod.rs (FFITailsAccessor), libursa/src/cl/{issuer,mod}.rs | the caller's take and put functions are an arbitrary function of the history of calls; the operations return the calls made, the registry as left and the result; induction over the accesses (`accessLoop_ends`), the model of `CL.Revocation` is the special case of a list of tails |
| C137–C138 | `FFI.Encryption` | libursa/src/ffi/encryption/mod.rs | the C functions over byte arrays that may be null, on top of `Symm.Model`; result = value, output written, error code; case analysis on the fault of the arguments |
| C139–C149 | `Sig.Bytes`, `Sig.Ed25519` | libursa/src/signatures/{mod,ed25519}.rs, libursa/src/kex/x25519.rs, libursa/src/ffi/signatures/ed25519.rs | structure `Dalek` (contract of curve25519-dalek, sha2, rand_chacha: group, base point of prime order, encodings, ladder, hashes); the algorithms of ed25519-dalek and x25519-dalek are written out on byte strings; group algebra modulo the order of the base point |
| C150–C157 | `Sig.Secp256k1` | libursa/src/signatures/secp256k1.rs (native), libursa/src/kex/secp256k1.rs (native and pure) | structure `Secp` (contract of libsecp256k1, k256, sha2, rand_chacha: group of prime order as a vector space over `ZMod n`, encodings, x-coordinates, deterministic nonce); ECDSA written out; field and group algebra. The pure build of the signatures does not compile against its dependency and is not modelled |
| C158–C160 | `BN.Text` | libursa/src/bn/{rust,openssl}.rs (text and serde) | the conversions of num-bigint and OpenSSL written out on characters; accepted texts characterised by induction, round trips through the value of the digits |
| C161–C163 | `BN.OpenSSL` | libursa/src/bn/{rust,openssl}.rs | the native backend by the contract of the OpenSSL functions (sign and magnitude, the version-dependent inverse modulo 1 a parameter); agreement theorems and iff-characterisations of the differences; induction over the random numbers drawn; the primality test is an arbitrary function |
| C164–C169 | `Pair.Model`: scalars of the pairing layer as integers with the AMCL `BIG` functions by contract (negative differences included), byte encodings, conversion from and to BigNumber, powers for revocation indices, `PointG1::from_hash` with its search loop over an abstract curve | `Props.Pair` | induction over programs of scalar operations (refinement to `ZMod q`), exact characterisation of `sub_mod`, least-coordinate characterisation of the search, shared signatures for neighbouring digests |
| C170-C175 | `CL.Json`, `CL.Builders`: JSON documents as syntax trees, the two text forms of numbers, serde's rules for structs, options, maps, sets, enums, the old formats; builders | CL/Json.lean, CL/Builders.lean, Props/CLJson.lean, Props/CLJsonForm.lean, Props/CLBuilders.lean | round trips by simplification from those of numbers; induction over maps, arrays and histories of calls; extensionality of sorted lists; serde_json's text level and AMCL's text of points are not modelled |
| C176-C179 | `Wasm.Model`: keys as hexadecimal texts and JSON, the classes of the JavaScript interface as wrappers of the native models, `maperr!`, `unwrap`; BLS objects as JSON documents | Wasm/Model.lean, Props/KeyText.lean, Props/Wasm.lean | texts against numerals in base 16; simulation of the native functions (`SameAs`) and their theorems; explicit documents for the negations |
| C180–C181 | `BP.PoseidonConstants` (generated from the source) | libzmix/bulletproofs_amcl/src/r1cs/gadgets/poseidon_constants.rs (tables for bls381) | the order of BLS12-381 is shown to be prime (Lucas' test in the kernel); the matrices of the source are checked to be Cauchy matrices 1/(i+j+w), whose sums of fractions vanish at too few points; S-boxes are injective or not according to gcd(3 or 5, order - 1) |
| C182 | `BP.R1CS` (`prove`), with the random values as arguments | `r1cs_hiding`: a bijection between the random values that give a proof for the one set of values and for the other: sL, sR are shifted so that l(x), r(x) are the same, all blindings are recomputed as discrete logarithms; the two verification equations give that t_x_blinding and e_blinding agree | the transcript hash is any function; challenge y = 0 excluded |
| C183-C184 | `Errors.Model`: the text of errors, serde_json's escaping, C strings, thread-local slots and a heap with any allocator | `document_read`: a reader of JSON documents, written separately, gives back message and backtrace, by induction on the text; `own_last_error`, `pointer_stable`, `no_leak`: an invariant of all interleaved histories | the message is a list of characters; backtraces are arbitrary texts |
| C185-C186 | `Errors.Model` (`Step`): the state of the crate `log` and the position of every thread in the call | an invariant with four phases; `all_delivered`, `nul_panics` say what the code does instead of C186 | sequentially consistent memory; env_logger's directives are an arbitrary predicate |
| C187 | `CL.Presentation` with the random values as arguments; `Props/CLHiding`: uniform draws (`slotSize` gives the ranges), `prob`, adaptive observers (`Observer`) | for every draw of one holder a draw of the other with the same presentation (masks shifted by challenge times difference); shifts are bounded, so all but a 2^-79 share of the draws stay in range; hybrid argument over presentations | hash is an arbitrary function; ideal uniform draws; no predicates, no non-revocation |
| C188 | the same, with the non-revocation part | `nonrev_tag`: the difference of two responses is twice challenge times context | negation |
| C189 | the same, with predicates | `predicate_value_identified`: the quotient of a response is within 2^672 of the blinding factor | negation; information-theoretic |
| C190 | issuance (C19) followed by presentation (C187) | `obtained_issued`: signatures lie in ⟨S⟩ because `Z`, `Rctxt`, `R_k`, `U` do; sizes of all numbers | `obtained_hiding` |
| C191, C192 | two accepting answers to one set of commitments (`SameCommitments`), as a rewinding extractor gets them | `verifyNe_inv`, `verifyEquality_inv` invert the verifier; linear algebra in the exponents; injective byte encodings split the hashed list | `predicate_proof_special_sound`, `presentation_special_sound`; `honest_fork` shows the hypotheses are met |
| C193 | `Delta.fromParts` applied to two snapshots of a history of C25 | `mergeAll_chain`, `witnessUpdate_spec` | `rebuilt_delta` |
| C194 | `PVerifier.verify` on arbitrary proofs; `modExp` with its panic for the modulus 0, `getDeltaPrime` with overflow | every step returns or its lookup is guarded; shape check ties predicates to the request | `Panic.verify_never_panics`, limits `verify_panics_zero_modulus`, `verifyNe_panics_overflow` |
| C195 | holder functions on arbitrary input; `Made` = builders reachable by any calls | invariant `Ready`: what `finalize` looks up is there | `Panic.blind_never_panics`, `process_never_panics`, `add_never_panics`, `finalize_never_panics` |
| C196 | `Builder.addCall`: the builder as mutable object | state after failure; `items_complete` from the spoilt state | `failed_add_effect_partial`, `spoilt_builder_rejected` |
| C197 | presentations with a non-revocation part, uniform field elements and numbers | `same_nonrevoc`: discrete logarithms of the differences of the two credentials give a bijection of the random field elements; then C187's bounded shift (`chance_shift`) | proof |
| C198 | provers as trees of oracle questions (`Prover`), oracle a uniformly random function on byte strings up to a length, `verify_complete_proof`, `BlindSignatureContext::verify`, `verify_signature_pok`, PS `verify` | forking lemma by counting (`second_moment`: an involution exchanges the two oracles outside the known part, then Cauchy–Schwarz); witness computed by the extractors of C40, C42, C47, C48 | proof |
| C199 | `gen_challenge`, `reconstruct_commitment`, provers as in C198 | forking lemma of C198 with the extractor of C96 (`extractChain`, `extractSk`) | proof |
| C200 | both BLS implementations, forgers as trees of questions for hash values and signatures (`Forger`), hash functions uniformly random to the non-zero points | explicit reduction (`simulate`, `solveMulti`): the simulation is faithful if the guess is right (`simulate_run`), and a counting injection from winning cases to solving cases (`reduction`) | proof |
| C201 | `Sig.Ed25519` with SHA-512 a uniformly random function to 64-byte strings (`withHash`), forgers as trees of questions for hash values and signatures (`Schnorr.Forger`) | three worlds: key and nonces drawn afresh (`world2`), signatures simulated from drawn answers (`world3`), both by counting bijections and bounds on the bad cases (`resample`); then the forking lemma (`twice`) and the explicit extractor | proof |
| C202 | `BP` transcripts as lists of labelled messages; challenges are the values of an arbitrary function on them | explicit injective question maps (`Questions`, `Questions.Bind`) for the challenges of `verifierChallenges` and `ippChallenges`; for the first phase an induction over the program of the session (commitments) and over the callbacks (they only append) | `Props/BPBinding.lean` |
| C203 | the same, with `verify` and the gadgets of MiMC, Poseidon and the Merkle trees, which all end in `constrain_lc_with_scalar` with the public value | the claim is false and its negation is proved: an honest proof made with the hash function `moved (d·g) O` becomes, with `T_1` moved by `d·g`, a proof with the same challenges for `O`; the last check is then balanced by another public value, known only once the challenges are | `Props/BPStatement.lean` |
| C204 | the issuer of the game is the model of the code (`newPrimaryKeys`, `blindedFactors`, `newPrimaryCredential`); a forger is any pair of functions of the public key and the credentials so far | abstract game and reduction in a group of order `4p'q'` (`SRSA`): the reduction plays the issuer with `S = (u^2)^(product of exponents)`; exponents of the key are drawn from a larger range (statistical comparison by counting, `RSACount`), and Shamir's trick combines the forgery; the code is then shown to play the abstract issuer exactly | `Props/{RSACount,StrongRSA,StrongRSAGame,CLForgery}.lean` |
| C205, C206 | the presentation model of C20 with a credential changed by its holder (`A / R_k^c`) | false, negations proved: the changed credential satisfies the equation for `m + e c` (`moved_equation`), everything the prover and verifier check still holds (`moved_honest`), so the completeness theorem C20 applies; for several credentials the shifts come from the Chinese remainder theorem | `Props/CLShift.lean` |
| C207 | `Groth` `Comm.validate`, `Resp.validate`, `reconstruct`, `reconstructPre` | equality with a specification that reports the first wrong number of a list of (given, expected) pairs | `Props/GrothCounts.lean` |
| C208 | the signer of the game is the model of the code (`generate`, `sigNew`, `blindSign`); a forger is any pair of functions of the public key and the answers so far | abstract game (`SDHGame`): the first reduction takes `h₀ = h(x) g` for a polynomial `h` with `h(-e_i) = -1/t_i` and two free coefficients, chooses `s_i` from `t_i`, and divides `1 + t h` by `X + e` with remainder; the second puts the problem into `h₀, h_j` and computes a logarithm from two openings; the coins of the game are embedded one to one into those of the reductions (`SDHCount`); the code is shown to play the abstract signer | `Props/{SDHGame,SDHCount,BBSForgery}.lean` |
| C209, C210 | the signer of the game is the model of the code (`keygen`, `sigNew`, `blindNew`, `blindingKey`); a forger is any pair of functions of what it sees of the public keys and the answers so far | C209: the forgery is shown equal to what the signer answers; C210: the reduction takes `y_j = a_j y + b_j`, asks the oracle for `∑ a_j m_j` and corrects the answer by `∑ b_j m_j`; `a` is independent of what the forger sees, so its messages have a new `∑ a_j m_j` except with probability `q/p` | `Props/PSForgery.lean` |
| C211 | `aggregatedKey`, `coeff`, `sigVerify`, `sigNew`, `sigNewRk`; forgers as trees of questions for hash values in the group, hash values in the field and signatures (`CForger`) | the simulation of C200 with the hash to the field left open, then a forking lemma in which the answers for the coefficients of the other keys are kept (`forking_keep`); two forgeries with one coefficient changed give `x Q` (`two_solve`) | `Props/BLSRogue.lean`, `Props/ForkingKeep.lean` |
| C212 | the game of C208 followed by a presentation: `Presenter`, `Shows`, checked by `verifySignaturePok` | the presenter is run twice (`forking_each`: forking for every value of the other coins, averaged), the two proofs give a signature (`bbs_pok_sound`) that wins the game of C208 (`rewound_wins`, `unforgeable_eq`) | `Props/BBSPresent.lean`, `Props/ForkingEach.lean` |
| C213 | the game of C210 followed by a proof of knowledge: `Presenter`, `Shows`, checked by `SigProof.verify` | as C212: `forking_each`, `ps_pok_extract`, then the game of C210 (`unforgeable_eq`) | `Props/PSPresent.lean` |
| C214 | an adaptive game on `encryptEasy` / `decryptEasy` of `cbcHmac` with a random MAC: `Player`, `play`, `Forged` | the run in which forgeries are rejected depends on the MAC at encrypted strings only; changing the MAC at the string of the first accepted forgery gives `256^t` cases for each one | `Props/SymmForgery.lean` |
| C215 | the left-or-right game on `encryptEasy` of `cbcHmac` with a random permutation and random nonces: `Pairs`, `observe` | processes that ask for values of a permutation (`Proc`); without repeated arguments or values a random permutation is at least as likely to give an answer as fresh draws (`good_le_real`, by induction over the process); repetitions are rare (`cbc_good`) | `Props/SymmSecrecy.lean` |
| C216 | the games of C214 and C215 together: `CPlayer`, `playC`, `view` | without a forgery every decryption is an error (`mute_or_forged`), which leaves the game of C215; C71 gives the attack when lengths differ | `Props/SymmCCA.lean` |
| C217 | guesser, key generation and encryption with the drawn exponents as coins; two solvers of the decision problem | ciphertexts for `U = g^r` made with the private exponents are those of the code; for `U = g^r h^s` the exponents `x + n' c` give the same public key and turn one list into the other (`yes_shift`), counted with `pr_embed` | `Props/CSSecrecy.lean` |
| C218 | `CS.Texts`: decryption with the numbers its errors print (`decryptText`, equal to `decrypt` up to the texts), a service that decrypts everything but one ciphertext | false of the code: `attack` run in closed form; the ciphertext it makes is an encryption of multiples of the messages | `Props/CSErrors.lean` |
| C219 | `CS.decrypt` as a service, asked adaptively before and after the ciphertext; coins as in C217 | decryption of elements without an `h` part depends on the exponents modulo `p'q'` only (`decrypt_congr`), so the shift of C217 is not seen through a service that refuses the others; the real service accepts one of the others for at most one of `min p q` shifts of `x2`, `x3` (`bad1_le`, `bad2_le`: no lucky question by pairwise disjointness, before and after the ciphertext) | `Props/CSCCA.lean` |
| C220 | the issuer of the game is the model of the code (`newRevocationKeys`, `newRevocationRegistryDef`, `newNonRevocationCredential`, `Op.run`); a forger is any pair of functions of what is public and the answers so far | the third equation of the holder's check is a signature `(x + c) sigma = h0 + vr h2 + m2 h1 + gamma^i g` of the game of C208's reduction (`SDH.forgery_solves`); the reduction runs the registry itself (it knows `gamma` and `sk`), and its answers are shown to be the issuer's exactly | `Props/RevForgery.lean` |
| C221 | `Sig.Handle`: a serde format as two functions; the call with a bound on its stack | induction on the bound: no bound is enough | `Sig/Handle.lean`, `Props/SigHandle.lean` |
| C222, C223 | `feldmanSplit`, `pedersenSplit` with random coefficients; a coalition sees the shares with its identifiers | the polynomial `prod (1 - X/i)` is 1 at 0 and 0 at the coalition: adding multiples of its coefficients to the random numbers moves the secret without being seen at the coalition (`held_shift`), and, for Pedersen, the opposite move of the blinding polynomial keeps the commitments; translations are bijections of the coins | `Props/SharingHiding.lean` |
| C224 | `BN.splitSecret` with random results of `rand_range` | as C222 over `ZMod p`, through `split_eq`; for a divisor `d` of the modulus the last Horner step at `d` adds the secret to a multiple of `d` | `Props/BNShamirHiding.lean` |
| C225 | `signCredentialWithRevoc`, `newNonRevocationCredential`, `processNonRevocationCredential` and the non-revocation proof, all of the model of the code | negation: the sum under the signature is the same for `(m2, (m' - m2) h1 + vr' h2)` and `(m', vr' h2)`; then the end-to-end theorems of C28 and C51 apply to the context `m'` | `Props/RevContext.lean` |
| C226 | `corrupted`: the attacker is any function from what it has seen to the next holder; `splitSecret`, `pedersenSplit` as they are | the coins are moved along the mask of the holders that were taken over in the end; the attacker takes over the same ones after the move, so moving back is the inverse and the map is a bijection | `Props/SharingAdaptive.lean` |
| C227 | `Dalek.xKeypair`, `xSharedSecret`, `Secp.keypair`, `sharedNative` with a random function in the place of SHA-256; an eavesdropper is a tree of questions | exchanging the value of the function at the common point with the fresh bytes is a bijection of the coins; both games agree unless the point is asked; one of the `q` questions is picked at random | `Props/SessionKeys.lean` |
| C228 | `newBlindCtx`, `completeSignature`; the masks are uniform; the signer is any test on the request and on acceptance | shifting the coins by the difference of the messages, the blinding so that the commitment is unchanged, is a bijection that leaves the request unchanged; `getB` is unchanged too, so acceptance differs only where the signature's `s` becomes zero | `Props/BBSBlindHiding.lean` |
| C229 | `Committing.commit`, `finish`, `genChallenge`, `genProof`; tests on the proof and on the whole (random) hash function | bijections of the coins: `r ↦ r + c (s' - s)` leaves the proof unchanged; `(f, c, z) ↦ (f with c at the hashed string, z + c s, old value)` turns the simulation into the proof | `Props/PoKHiding.lean` |
| C230 | `PS.init`, `BBS.init`, `genProof`, `proverChallenge` with any hash function | `fs_bijective`: if for each challenge the proofs of one signature are those of the other up to a change of the coins (C80, C84), determine the coins, and contain what is hashed, then the change is a bijection with the challenge hashed too; BBS+: first with `r2` from all numbers, then `pr_restrict` | `Props/Unlinkable.lean` |
| C231 | as C230, with `history`: each question depends on the answers so far | a bijection of the coins of one answer for every question gives one of all coins (`history_bijective`); a bit that does not change what is seen is guessed half the time (`guess_bit`) | `Props/Anonymity.lean` |
| C232 | `commitment`, `genChallenge` with any hash function, `response`, `history` | for each challenge the change of the random values of C100 (`simRnd`) keeps commitment and response and is injective; so it is a bijection with the challenge hashed too (`moved`); then as C231 | `Props/TokenAnonymity.lean` |
| C233 | as C230, with the hash a random function | simulator `simulated`: the signature is `(u g, w u g)`, so that J is `w g~ - X~ - sum of the revealed` and needs no secret; `back` is the bijection to the honest coins; `fs_simulated` exchanges the drawn challenge with the value of the hash function | `Props/PSSimulate.lean` |
| C234 | game `issueAndPresent`: requests of C228 (BBS+) and C229 (PS), any replies, unblinding with the check, presentations of C231 | for each draw of the requests' coins the rest is C231 (both hold valid signatures) or a guess at a bit that nothing depends on; averaged with `pr_near` | `Props/IssuanceUnlinkable.lean` |
| C235 | `honestAnswer` and, from the visible messages only, `issuerAnswer` (`sigNew` and `present`) in the place of it | C231 with the holder's signature and the issuer's as the two signatures; `issuer_signs` gives e and s; PS: a filling exists as the holder's messages are one | `Props/BBSSimulate.lean` |
| C236 | `Wallet.present`: `init` for each credential, `proverChallenge` over all, `generateSignaturePok` for each | closed form `present_eq`; `fs_bijective` on the product of the coins, each component moved as in C230 at the common challenge | `Props/BBSTogether.lean` |
| C237 | `Wallet.presentLinked`: as C236 with `hiddenExt` and common blindings | `init_linked`: the same as own blindings that are tied together; the coins found for another wallet are tied as well, since equal responses shift by `c (s' l - s l)` | `Props/BBSLinked.lean` |
| C238 | `init` and `genProof` with `hiddenExt` | `hiddenOf_at` finds the response; two linear equations in the message and the blinding | `Props/BBSReuse.lean` |
| C48 | `PoKVC.Model` | libzmix/bbs/src/pok_vc.rs, commitment | same |

libzmix/src/commitments declares only `pok_vc` in its `mod.rs`; the other files there (e.g. `pedersen_BLS12_381.rs`) are not compiled and not modelled.
Also not compiled and therefore not modelled: `r1cs/gadgets/hamming_distance.rs` and `randomizer.rs` (commented out in
`gadgets/mod.rs`), `libzmix/src/zkl` and `libzmix/src/hash_functions` (not declared in `libzmix/src/lib.rs`). Of the wasm wrappers
(`libursa/src/wasm`), `cl.rs` is not declared in `mod.rs`, so it is not compiled and not modelled.

Every property can be expressed in the model; none is marked not applicable.

## Theorems whose conclusion is about hash collisions

For a fixed-length hash a statement "some collision exists" is true by counting.  Therefore theorems of that kind name the two
concrete byte strings that collide (e.g. `replay_gives_collision`, `encode_attribute_collision_iff`).
