import Verif.FFI.Model

/-!
# The functions of the C interface

The table of the 121 exported functions of `libursa/src/ffi/bls.rs` and `libursa/src/ffi/cl`, read
off the source function by function: parameters, checking macros in their order with the type and
the code they name, `Box::from_raw`, and what is written through the out pointers.
-/

namespace Verif.FFI

/-- The exported functions of the C interface that work on opaque pointers, in the order of the
source: `libursa/src/ffi/bls.rs`, `libursa/src/ffi/cl/mod.rs`, `issuer.rs`, `prover.rs`,
`verifier.rs`.  One constructor per function of the code, with its name. -/
inductive Fn where
  | ursa_bls_generator_new
  | ursa_bls_generator_from_bytes
  | ursa_bls_generator_as_bytes
  | ursa_bls_generator_free
  | ursa_bls_sign_key_new
  | ursa_bls_sign_key_from_bytes
  | ursa_bls_sign_key_as_bytes
  | ursa_bls_sign_key_free
  | ursa_bls_ver_key_new
  | ursa_bls_ver_key_from_bytes
  | ursa_bls_ver_key_as_bytes
  | ursa_bls_ver_key_free
  | ursa_bls_pop_new
  | ursa_bls_pop_from_bytes
  | ursa_bls_pop_as_bytes
  | ursa_bls_pop_free
  | ursa_bls_signature_from_bytes
  | ursa_bls_signature_as_bytes
  | ursa_bls_signature_free
  | ursa_bls_multi_signature_new
  | ursa_bls_multi_signature_from_bytes
  | ursa_bls_multi_signature_as_bytes
  | ursa_bls_multi_signature_free
  | ursa_bls_sign
  | ursa_bls_verify
  | ursa_bls_verify_multi_sig
  | ursa_bls_verify_pop
  | ursa_cl_tails_generator_next
  | ursa_cl_tails_generator_count
  | ursa_cl_tail_free
  | ursa_cl_witness_new
  | ursa_cl_witness_update
  | ursa_cl_witness_free
  | ursa_cl_credential_schema_builder_new
  | ursa_cl_credential_schema_builder_add_attr
  | ursa_cl_credential_schema_builder_finalize
  | ursa_cl_credential_schema_free
  | ursa_cl_non_credential_schema_builder_new
  | ursa_cl_non_credential_schema_builder_add_attr
  | ursa_cl_non_credential_schema_builder_finalize
  | ursa_cl_non_credential_schema_free
  | ursa_cl_credential_values_builder_new
  | ursa_cl_credential_values_builder_add_dec_known
  | ursa_cl_credential_values_builder_add_dec_hidden
  | ursa_cl_credential_values_builder_add_dec_commitment
  | ursa_cl_credential_values_builder_finalize
  | ursa_cl_credential_values_free
  | ursa_cl_sub_proof_request_builder_new
  | ursa_cl_sub_proof_request_builder_add_revealed_attr
  | ursa_cl_sub_proof_request_builder_add_predicate
  | ursa_cl_sub_proof_request_builder_finalize
  | ursa_cl_sub_proof_request_free
  | ursa_cl_new_nonce
  | ursa_cl_nonce_to_json
  | ursa_cl_nonce_from_json
  | ursa_cl_nonce_free
  | ursa_cl_issuer_new_credential_def
  | ursa_cl_credential_public_key_to_json
  | ursa_cl_credential_public_key_from_json
  | ursa_cl_credential_public_key_free
  | ursa_cl_credential_private_key_to_json
  | ursa_cl_credential_private_key_from_json
  | ursa_cl_credential_private_key_free
  | ursa_cl_credential_key_correctness_proof_to_json
  | ursa_cl_credential_key_correctness_proof_from_json
  | ursa_cl_credential_key_correctness_proof_free
  | ursa_cl_issuer_new_revocation_registry_def
  | ursa_cl_revocation_key_public_to_json
  | ursa_cl_revocation_key_public_from_json
  | ursa_cl_revocation_key_public_free
  | ursa_cl_revocation_key_private_to_json
  | ursa_cl_revocation_key_private_from_json
  | ursa_cl_revocation_key_private_free
  | ursa_cl_revocation_registry_to_json
  | ursa_cl_revocation_registry_from_json
  | ursa_cl_revocation_registry_free
  | ursa_cl_revocation_tails_generator_to_json
  | ursa_cl_revocation_tails_generator_from_json
  | ursa_cl_revocation_tails_generator_free
  | ursa_cl_issuer_sign_credential
  | ursa_cl_issuer_sign_credential_with_revoc
  | ursa_cl_credential_signature_to_json
  | ursa_cl_credential_signature_from_json
  | ursa_cl_credential_signature_free
  | ursa_cl_signature_correctness_proof_to_json
  | ursa_cl_signature_correctness_proof_from_json
  | ursa_cl_signature_correctness_proof_free
  | ursa_cl_revocation_registry_delta_to_json
  | ursa_cl_revocation_registry_delta_from_json
  | ursa_cl_revocation_registry_delta_free
  | ursa_revocation_registry_delta_from_parts
  | ursa_cl_issuer_revoke_credential
  | ursa_cl_issuer_recovery_credential
  | ursa_cl_issuer_merge_revocation_registry_deltas
  | ursa_cl_prover_new_master_secret
  | ursa_cl_master_secret_to_json
  | ursa_cl_master_secret_from_json
  | ursa_cl_master_secret_free
  | ursa_cl_prover_blind_credential_secrets
  | ursa_cl_blinded_credential_secrets_to_json
  | ursa_cl_blinded_credential_secrets_from_json
  | ursa_cl_blinded_credential_secrets_free
  | ursa_cl_credential_secrets_blinding_factors_to_json
  | ursa_cl_credential_secrets_blinding_factors_from_json
  | ursa_cl_credential_secrets_blinding_factors_free
  | ursa_cl_blinded_credential_secrets_correctness_proof_to_json
  | ursa_cl_blinded_credential_secrets_correctness_proof_from_json
  | ursa_cl_blinded_credential_secrets_correctness_proof_free
  | ursa_cl_prover_process_credential_signature
  | ursa_cl_prover_get_credential_revocation_index
  | ursa_cl_prover_new_proof_builder
  | ursa_cl_proof_builder_add_common_attribute
  | ursa_cl_proof_builder_add_sub_proof_request
  | ursa_cl_proof_builder_finalize
  | ursa_cl_proof_to_json
  | ursa_cl_proof_from_json
  | ursa_cl_proof_free
  | ursa_cl_verifier_new_proof_verifier
  | ursa_cl_proof_verifier_add_common_attribute
  | ursa_cl_proof_verifier_add_sub_proof_request
  | ursa_cl_proof_verifier_verify
  deriving DecidableEq, Repr

/-- The body of each function, with the lines of the source it is in. -/
def sig : Fn → Sig
  -- libursa/src/ffi/bls.rs:18-36
  | .ursa_bls_generator_new =>
    { params := [.outHandle .generator],
      checks := [.ptr 0 .param1],
      outs := [(0, .box .generator)] }
  -- libursa/src/ffi/bls.rs:48-83
  | .ursa_bls_generator_from_bytes =>
    { params := [.bytes, .bytesLen, .outHandle .generator],
      checks := [.bytes 0 1 .param1 .param2, .ptr 2 .param1],
      outs := [(2, .box .generator)] }
  -- libursa/src/ffi/bls.rs:95-121
  | .ursa_bls_generator_as_bytes =>
    { params := [.handle .generator, .outValue, .outValue],
      checks := [.ref 0 .generator .param1, .ptr 1 .param2, .ptr 2 .param3],
      fallible := false,
      outs := [(1, .value), (2, .value)] }
  -- libursa/src/ffi/bls.rs:129-140
  | .ursa_bls_generator_free =>
    { params := [.handle .generator],
      checks := [.ptr 0 .param1],
      takes := [(0, .generator)],
      fallible := false }
  -- libursa/src/ffi/bls.rs:152-186
  | .ursa_bls_sign_key_new =>
    { params := [.optBytes, .optBytesLen, .outHandle .signKey],
      checks := [.optBytes 0 1 .param2],
      outs := [(2, .box .signKey)] }
  -- libursa/src/ffi/bls.rs:198-239
  | .ursa_bls_sign_key_from_bytes =>
    { params := [.bytes, .bytesLen, .outHandle .signKey],
      checks := [.bytes 0 1 .param1 .param2, .ptr 2 .param1],
      outs := [(2, .box .signKey)] }
  -- libursa/src/ffi/bls.rs:251-280
  | .ursa_bls_sign_key_as_bytes =>
    { params := [.handle .signKey, .outValue, .outValue],
      checks := [.ref 0 .signKey .param1, .ptr 1 .param2, .ptr 2 .param3],
      fallible := false,
      outs := [(1, .value), (2, .value)] }
  -- libursa/src/ffi/bls.rs:288-302
  | .ursa_bls_sign_key_free =>
    { params := [.handle .signKey],
      checks := [.ptr 0 .param1],
      takes := [(0, .signKey)],
      fallible := false }
  -- libursa/src/ffi/bls.rs:314-348
  | .ursa_bls_ver_key_new =>
    { params := [.handle .generator, .handle .signKey, .outHandle .verKey],
      checks := [.ref 0 .generator .param1, .ref 1 .signKey .param2],
      outs := [(2, .box .verKey)] }
  -- libursa/src/ffi/bls.rs:360-395
  | .ursa_bls_ver_key_from_bytes =>
    { params := [.bytes, .bytesLen, .outHandle .verKey],
      checks := [.bytes 0 1 .param1 .param2, .ptr 2 .param1],
      outs := [(2, .box .verKey)] }
  -- libursa/src/ffi/bls.rs:407-433
  | .ursa_bls_ver_key_as_bytes =>
    { params := [.handle .verKey, .outValue, .outValue],
      checks := [.ref 0 .verKey .param1, .ptr 1 .param2, .ptr 2 .param3],
      fallible := false,
      outs := [(1, .value), (2, .value)] }
  -- libursa/src/ffi/bls.rs:441-452
  | .ursa_bls_ver_key_free =>
    { params := [.handle .verKey],
      checks := [.ptr 0 .param1],
      takes := [(0, .verKey)],
      fallible := false }
  -- libursa/src/ffi/bls.rs:464-498
  | .ursa_bls_pop_new =>
    { params := [.handle .verKey, .handle .signKey, .outHandle .proofOfPossession],
      checks := [.ref 0 .verKey .param1, .ref 1 .signKey .param2],
      outs := [(2, .box .proofOfPossession)] }
  -- libursa/src/ffi/bls.rs:510-545
  | .ursa_bls_pop_from_bytes =>
    { params := [.bytes, .bytesLen, .outHandle .proofOfPossession],
      checks := [.bytes 0 1 .param1 .param2, .ptr 2 .param3],
      outs := [(2, .box .proofOfPossession)] }
  -- libursa/src/ffi/bls.rs:557-583
  | .ursa_bls_pop_as_bytes =>
    { params := [.handle .proofOfPossession, .outValue, .outValue],
      checks := [.ref 0 .proofOfPossession .param1, .ptr 1 .param2, .ptr 2 .param3],
      fallible := false,
      outs := [(1, .value), (2, .value)] }
  -- libursa/src/ffi/bls.rs:591-602
  | .ursa_bls_pop_free =>
    { params := [.handle .proofOfPossession],
      checks := [.ptr 0 .param1],
      takes := [(0, .proofOfPossession)],
      fallible := false }
  -- libursa/src/ffi/bls.rs:614-652
  | .ursa_bls_signature_from_bytes =>
    { params := [.bytes, .bytesLen, .outHandle .signature],
      checks := [.bytes 0 1 .param1 .param2, .ptr 2 .param1],
      outs := [(2, .box .signature)] }
  -- libursa/src/ffi/bls.rs:664-690
  | .ursa_bls_signature_as_bytes =>
    { params := [.handle .signature, .outValue, .outValue],
      checks := [.ref 0 .signature .param1, .ptr 1 .param2, .ptr 2 .param3],
      fallible := false,
      outs := [(1, .value), (2, .value)] }
  -- libursa/src/ffi/bls.rs:698-709
  | .ursa_bls_signature_free =>
    { params := [.handle .signature],
      checks := [.ptr 0 .param1],
      takes := [(0, .signature)],
      fallible := false }
  -- libursa/src/ffi/bls.rs:721-755
  | .ursa_bls_multi_signature_new =>
    { params := [.handles .signature, .handlesLen, .outHandle .multiSignature],
      checks := [.refArray 0 1 .signature .param1 .param2, .ptr 2 .param3],
      outs := [(2, .box .multiSignature)] }
  -- libursa/src/ffi/bls.rs:767-808
  | .ursa_bls_multi_signature_from_bytes =>
    { params := [.bytes, .bytesLen, .outHandle .multiSignature],
      checks := [.bytes 0 1 .param1 .param2, .ptr 2 .param1],
      outs := [(2, .box .multiSignature)] }
  -- libursa/src/ffi/bls.rs:820-850
  | .ursa_bls_multi_signature_as_bytes =>
    { params := [.handle .multiSignature, .outValue, .outValue],
      checks := [.ptr 0 .param1, .ptr 1 .param2, .ptr 2 .param3],
      derefs := [(0, .multiSignature)],
      fallible := false,
      outs := [(1, .value), (2, .value)] }
  -- libursa/src/ffi/bls.rs:858-872
  | .ursa_bls_multi_signature_free =>
    { params := [.handle .multiSignature],
      checks := [.ptr 0 .param1],
      takes := [(0, .multiSignature)],
      fallible := false }
  -- libursa/src/ffi/bls.rs:887-929
  | .ursa_bls_sign =>
    { params := [.bytes, .bytesLen, .handle .signKey, .outHandle .signature],
      checks := [.bytes 0 1 .param1 .param2, .ref 2 .signKey .param3, .ptr 3 .param5],
      outs := [(3, .box .signature)] }
  -- libursa/src/ffi/bls.rs:943-984
  | .ursa_bls_verify =>
    { params := [.handle .signature, .bytes, .bytesLen, .handle .verKey, .handle .generator,
        .outValue],
      checks := [.ref 0 .signature .param1, .bytes 1 2 .param2 .param3, .ref 3 .verKey .param4,
        .ref 4 .generator .param5, .ptr 5 .param6],
      outs := [(5, .value)] }
  -- libursa/src/ffi/bls.rs:999-1047
  | .ursa_bls_verify_multi_sig =>
    { params := [.handle .multiSignature, .bytes, .bytesLen, .handles .verKey, .handlesLen,
        .handle .generator, .outValue],
      checks := [.ref 0 .multiSignature .param1, .bytes 1 2 .param2 .param3,
        .refArray 3 4 .verKey .param4 .param5, .ref 5 .generator .param6, .ptr 6 .param7],
      outs := [(6, .value)] }
  -- libursa/src/ffi/bls.rs:1059-1097
  | .ursa_bls_verify_pop =>
    { params := [.handle .proofOfPossession, .handle .verKey, .handle .generator, .outValue],
      checks := [.ref 0 .proofOfPossession .param1, .ref 1 .verKey .param2,
        .ref 2 .generator .param3, .ptr 3 .param4],
      outs := [(3, .value)] }
  -- libursa/src/ffi/cl/mod.rs:21-54
  | .ursa_cl_tails_generator_next =>
    { params := [.handle .revocationTailsGenerator, .outHandle .tail],
      checks := [.mutRef 0 .revocationTailsGenerator .param1, .ptr 1 .param2],
      outs := [(1, .boxOrNull .tail)] }
  -- libursa/src/ffi/cl/mod.rs:58-83
  | .ursa_cl_tails_generator_count =>
    { params := [.handle .revocationTailsGenerator, .outValue],
      checks := [.mutRef 0 .revocationTailsGenerator .param1, .ptr 1 .param2],
      fallible := false,
      outs := [(1, .value)] }
  -- libursa/src/ffi/cl/mod.rs:87-98
  | .ursa_cl_tail_free =>
    { params := [.handle .tail],
      checks := [.ptr 0 .param1],
      takes := [(0, .tail)],
      fallible := false }
  -- libursa/src/ffi/cl/mod.rs:102-140
  | .ursa_cl_witness_new =>
    { params := [.scalar, .scalar, .scalar, .handle .revocationRegistryDelta, .ctx, .callback,
        .callback, .outHandle .witness],
      checks := [.ref 3 .revocationRegistryDelta .param3],
      outs := [(7, .box .witness)] }
  -- libursa/src/ffi/cl/mod.rs:144-170
  | .ursa_cl_witness_update =>
    { params := [.scalar, .scalar, .handle .revocationRegistryDelta, .handle .witness, .ctx,
        .callback, .callback],
      checks := [.ref 2 .revocationRegistryDelta .param3, .mutRef 3 .witness .param4] }
  -- libursa/src/ffi/cl/mod.rs:174-185
  | .ursa_cl_witness_free =>
    { params := [.handle .witness],
      checks := [.ptr 0 .param1],
      takes := [(0, .witness)],
      fallible := false }
  -- libursa/src/ffi/cl/mod.rs:199-229
  | .ursa_cl_credential_schema_builder_new =>
    { params := [.outHandle .credentialSchemaBuilder],
      checks := [.ptr 0 .param1],
      outs := [(0, .box .credentialSchemaBuilder)] }
  -- libursa/src/ffi/cl/mod.rs:238-262
  | .ursa_cl_credential_schema_builder_add_attr =>
    { params := [.handle .credentialSchemaBuilder, .cstr],
      checks := [.mutRef 0 .credentialSchemaBuilder .param1, .str 1 .param2] }
  -- libursa/src/ffi/cl/mod.rs:274-313
  | .ursa_cl_credential_schema_builder_finalize =>
    { params := [.handle .credentialSchemaBuilder, .outHandle .credentialSchema],
      checks := [.ptr 0 .param1, .ptr 1 .param2],
      takes := [(0, .credentialSchemaBuilder)],
      outs := [(1, .box .credentialSchema)] }
  -- libursa/src/ffi/cl/mod.rs:321-338
  | .ursa_cl_credential_schema_free =>
    { params := [.handle .credentialSchema],
      checks := [.ptr 0 .param1],
      takes := [(0, .credentialSchema)],
      fallible := false }
  -- libursa/src/ffi/cl/mod.rs:352-388
  | .ursa_cl_non_credential_schema_builder_new =>
    { params := [.outHandle .nonCredentialSchemaBuilder],
      checks := [.ptr 0 .param1],
      outs := [(0, .box .nonCredentialSchemaBuilder)] }
  -- libursa/src/ffi/cl/mod.rs:397-421
  | .ursa_cl_non_credential_schema_builder_add_attr =>
    { params := [.handle .nonCredentialSchemaBuilder, .cstr],
      checks := [.mutRef 0 .nonCredentialSchemaBuilder .param1, .str 1 .param2] }
  -- libursa/src/ffi/cl/mod.rs:433-476
  | .ursa_cl_non_credential_schema_builder_finalize =>
    { params := [.handle .nonCredentialSchemaBuilder, .outHandle .nonCredentialSchema],
      checks := [.ptr 0 .param1, .ptr 1 .param2],
      takes := [(0, .nonCredentialSchemaBuilder)],
      outs := [(1, .box .nonCredentialSchema)] }
  -- libursa/src/ffi/cl/mod.rs:484-504
  | .ursa_cl_non_credential_schema_free =>
    { params := [.handle .nonCredentialSchema],
      checks := [.ptr 0 .param1],
      takes := [(0, .nonCredentialSchema)],
      fallible := false }
  -- libursa/src/ffi/cl/mod.rs:518-548
  | .ursa_cl_credential_values_builder_new =>
    { params := [.outHandle .credentialValuesBuilder],
      checks := [.ptr 0 .param1],
      outs := [(0, .box .credentialValuesBuilder)] }
  -- libursa/src/ffi/cl/mod.rs:558-585
  | .ursa_cl_credential_values_builder_add_dec_known =>
    { params := [.handle .credentialValuesBuilder, .cstr, .cstr],
      checks := [.mutRef 0 .credentialValuesBuilder .param1, .str 1 .param2, .str 2 .param3] }
  -- libursa/src/ffi/cl/mod.rs:595-622
  | .ursa_cl_credential_values_builder_add_dec_hidden =>
    { params := [.handle .credentialValuesBuilder, .cstr, .cstr],
      checks := [.mutRef 0 .credentialValuesBuilder .param1, .str 1 .param2, .str 2 .param3] }
  -- libursa/src/ffi/cl/mod.rs:633-664
  | .ursa_cl_credential_values_builder_add_dec_commitment =>
    { params := [.handle .credentialValuesBuilder, .cstr, .cstr, .cstr],
      checks := [.mutRef 0 .credentialValuesBuilder .param1, .str 1 .param2, .str 2 .param3,
        .str 3 .param4] }
  -- libursa/src/ffi/cl/mod.rs:676-715
  | .ursa_cl_credential_values_builder_finalize =>
    { params := [.handle .credentialValuesBuilder, .outHandle .credentialValues],
      checks := [.ptr 0 .param1, .ptr 1 .param2],
      takes := [(0, .credentialValuesBuilder)],
      outs := [(1, .box .credentialValues)] }
  -- libursa/src/ffi/cl/mod.rs:723-740
  | .ursa_cl_credential_values_free =>
    { params := [.handle .credentialValues],
      checks := [.ptr 0 .param1],
      takes := [(0, .credentialValues)],
      fallible := false }
  -- libursa/src/ffi/cl/mod.rs:754-784
  | .ursa_cl_sub_proof_request_builder_new =>
    { params := [.outHandle .subProofRequestBuilder],
      checks := [.ptr 0 .param1],
      outs := [(0, .box .subProofRequestBuilder)] }
  -- libursa/src/ffi/cl/mod.rs:793-819
  | .ursa_cl_sub_proof_request_builder_add_revealed_attr =>
    { params := [.handle .subProofRequestBuilder, .cstr],
      checks := [.mutRef 0 .subProofRequestBuilder .param1, .str 1 .param2] }
  -- libursa/src/ffi/cl/mod.rs:830-859
  | .ursa_cl_sub_proof_request_builder_add_predicate =>
    { params := [.handle .subProofRequestBuilder, .cstr, .cstr, .scalar],
      checks := [.mutRef 0 .subProofRequestBuilder .param1, .str 1 .param2, .str 2 .param3] }
  -- libursa/src/ffi/cl/mod.rs:871-911
  | .ursa_cl_sub_proof_request_builder_finalize =>
    { params := [.handle .subProofRequestBuilder, .outHandle .subProofRequest],
      checks := [.ptr 0 .param1, .ptr 1 .param2],
      takes := [(0, .subProofRequestBuilder)],
      outs := [(1, .box .subProofRequest)] }
  -- libursa/src/ffi/cl/mod.rs:919-936
  | .ursa_cl_sub_proof_request_free =>
    { params := [.handle .subProofRequest],
      checks := [.ptr 0 .param1],
      takes := [(0, .subProofRequest)],
      fallible := false }
  -- libursa/src/ffi/cl/mod.rs:946-964
  | .ursa_cl_new_nonce =>
    { params := [.outHandle .nonce],
      checks := [.ptr 0 .param1],
      outs := [(0, .box .nonce)] }
  -- libursa/src/ffi/cl/mod.rs:973-1007
  | .ursa_cl_nonce_to_json =>
    { params := [.handle .nonce, .outValue],
      checks := [.ref 0 .nonce .param1, .ptr 1 .param2],
      outs := [(1, .value)] }
  -- libursa/src/ffi/cl/mod.rs:1018-1054
  | .ursa_cl_nonce_from_json =>
    { params := [.cstr, .outHandle .nonce],
      checks := [.str 0 .param1, .ptr 1 .param2],
      outs := [(1, .box .nonce)] }
  -- libursa/src/ffi/cl/mod.rs:1062-1073
  | .ursa_cl_nonce_free =>
    { params := [.handle .nonce],
      checks := [.ptr 0 .param1],
      takes := [(0, .nonce)],
      fallible := false }
  -- libursa/src/ffi/cl/issuer.rs:34-108
  | .ursa_cl_issuer_new_credential_def =>
    { params := [.handle .credentialSchema, .handle .nonCredentialSchema, .scalar,
        .outHandle .credentialPublicKey, .outHandle .credentialPrivateKey,
        .outHandle .credentialKeyCorrectnessProof],
      checks := [.ref 0 .credentialSchema .param1, .ref 1 .nonCredentialSchema .param2,
        .ptr 3 .param3, .ptr 4 .param4, .ptr 5 .param5],
      outs := [(3, .box .credentialPublicKey), (4, .box .credentialPrivateKey),
        (5, .box .credentialKeyCorrectnessProof)] }
  -- libursa/src/ffi/cl/issuer.rs:117-160
  | .ursa_cl_credential_public_key_to_json =>
    { params := [.handle .credentialPublicKey, .outValue],
      checks := [.ref 0 .credentialPublicKey .param1, .ptr 1 .param2],
      outs := [(1, .value)] }
  -- libursa/src/ffi/cl/issuer.rs:172-214
  | .ursa_cl_credential_public_key_from_json =>
    { params := [.cstr, .outHandle .credentialPublicKey],
      checks := [.str 0 .param1, .ptr 1 .param2],
      outs := [(1, .box .credentialPublicKey)] }
  -- libursa/src/ffi/cl/issuer.rs:222-242
  | .ursa_cl_credential_public_key_free =>
    { params := [.handle .credentialPublicKey],
      checks := [.ptr 0 .param1],
      takes := [(0, .credentialPublicKey)],
      fallible := false }
  -- libursa/src/ffi/cl/issuer.rs:251-294
  | .ursa_cl_credential_private_key_to_json =>
    { params := [.handle .credentialPrivateKey, .outValue],
      checks := [.ref 0 .credentialPrivateKey .param1, .ptr 1 .param2],
      outs := [(1, .value)] }
  -- libursa/src/ffi/cl/issuer.rs:306-348
  | .ursa_cl_credential_private_key_from_json =>
    { params := [.cstr, .outHandle .credentialPrivateKey],
      checks := [.str 0 .param1, .ptr 1 .param2],
      outs := [(1, .box .credentialPrivateKey)] }
  -- libursa/src/ffi/cl/issuer.rs:356-376
  | .ursa_cl_credential_private_key_free =>
    { params := [.handle .credentialPrivateKey],
      checks := [.ptr 0 .param1],
      takes := [(0, .credentialPrivateKey)],
      fallible := false }
  -- libursa/src/ffi/cl/issuer.rs:385-428
  | .ursa_cl_credential_key_correctness_proof_to_json =>
    { params := [.handle .credentialKeyCorrectnessProof, .outValue],
      checks := [.ref 0 .credentialKeyCorrectnessProof .param1, .ptr 1 .param2],
      outs := [(1, .value)] }
  -- libursa/src/ffi/cl/issuer.rs:440-482
  | .ursa_cl_credential_key_correctness_proof_from_json =>
    { params := [.cstr, .outHandle .credentialKeyCorrectnessProof],
      checks := [.str 0 .param1, .ptr 1 .param2],
      outs := [(1, .box .credentialKeyCorrectnessProof)] }
  -- libursa/src/ffi/cl/issuer.rs:490-514
  | .ursa_cl_credential_key_correctness_proof_free =>
    { params := [.handle .credentialKeyCorrectnessProof],
      checks := [.ptr 0 .param1],
      takes := [(0, .credentialKeyCorrectnessProof)],
      fallible := false }
  -- libursa/src/ffi/cl/issuer.rs:540-591
  | .ursa_cl_issuer_new_revocation_registry_def =>
    { params := [.handle .credentialPublicKey, .scalar, .scalar,
        .outHandle .revocationKeyPublic, .outHandle .revocationKeyPrivate,
        .outHandle .revocationRegistry, .outHandle .revocationTailsGenerator],
      checks := [.ref 0 .credentialPublicKey .param1, .ptr 3 .param4, .ptr 4 .param5,
        .ptr 5 .param6, .ptr 6 .param7],
      outs := [(3, .box .revocationKeyPublic), (4, .box .revocationKeyPrivate),
        (5, .box .revocationRegistry), (6, .box .revocationTailsGenerator)] }
  -- libursa/src/ffi/cl/issuer.rs:600-647
  | .ursa_cl_revocation_key_public_to_json =>
    { params := [.handle .revocationKeyPublic, .outValue],
      checks := [.ref 0 .revocationKeyPublic .param1, .ptr 1 .param2],
      outs := [(1, .value)] }
  -- libursa/src/ffi/cl/issuer.rs:659-704
  | .ursa_cl_revocation_key_public_from_json =>
    { params := [.cstr, .outHandle .revocationKeyPublic],
      checks := [.str 0 .param1, .ptr 1 .param2],
      outs := [(1, .box .revocationKeyPublic)] }
  -- libursa/src/ffi/cl/issuer.rs:712-728
  | .ursa_cl_revocation_key_public_free =>
    { params := [.handle .revocationKeyPublic],
      checks := [.ptr 0 .param1],
      takes := [(0, .revocationKeyPublic)],
      fallible := false }
  -- libursa/src/ffi/cl/issuer.rs:737-784
  | .ursa_cl_revocation_key_private_to_json =>
    { params := [.handle .revocationKeyPrivate, .outValue],
      checks := [.ref 0 .revocationKeyPrivate .param1, .ptr 1 .param2],
      outs := [(1, .value)] }
  -- libursa/src/ffi/cl/issuer.rs:796-838
  | .ursa_cl_revocation_key_private_from_json =>
    { params := [.cstr, .outHandle .revocationKeyPrivate],
      checks := [.str 0 .param1, .ptr 1 .param2],
      outs := [(1, .box .revocationKeyPrivate)] }
  -- libursa/src/ffi/cl/issuer.rs:846-863
  | .ursa_cl_revocation_key_private_free =>
    { params := [.handle .revocationKeyPrivate],
      checks := [.ptr 0 .param1],
      takes := [(0, .revocationKeyPrivate)],
      fallible := false }
  -- libursa/src/ffi/cl/issuer.rs:872-915
  | .ursa_cl_revocation_registry_to_json =>
    { params := [.handle .revocationRegistry, .outValue],
      checks := [.ref 0 .revocationRegistry .param1, .ptr 1 .param2],
      outs := [(1, .value)] }
  -- libursa/src/ffi/cl/issuer.rs:927-969
  | .ursa_cl_revocation_registry_from_json =>
    { params := [.cstr, .outHandle .revocationRegistry],
      checks := [.str 0 .param1, .ptr 1 .param2],
      outs := [(1, .box .revocationRegistry)] }
  -- libursa/src/ffi/cl/issuer.rs:977-994
  | .ursa_cl_revocation_registry_free =>
    { params := [.handle .revocationRegistry],
      checks := [.ptr 0 .param1],
      takes := [(0, .revocationRegistry)],
      fallible := false }
  -- libursa/src/ffi/cl/issuer.rs:1003-1050
  | .ursa_cl_revocation_tails_generator_to_json =>
    { params := [.handle .revocationTailsGenerator, .outValue],
      checks := [.ref 0 .revocationTailsGenerator .param1, .ptr 1 .param2],
      outs := [(1, .value)] }
  -- libursa/src/ffi/cl/issuer.rs:1062-1105
  | .ursa_cl_revocation_tails_generator_from_json =>
    { params := [.cstr, .outHandle .revocationTailsGenerator],
      checks := [.str 0 .param1, .ptr 1 .param2],
      outs := [(1, .box .revocationTailsGenerator)] }
  -- libursa/src/ffi/cl/issuer.rs:1113-1136
  | .ursa_cl_revocation_tails_generator_free =>
    { params := [.handle .revocationTailsGenerator],
      checks := [.ptr 0 .param1],
      takes := [(0, .revocationTailsGenerator)],
      fallible := false }
  -- libursa/src/ffi/cl/issuer.rs:1159-1249
  | .ursa_cl_issuer_sign_credential =>
    { params := [.cstr, .handle .blindedCredentialSecrets,
        .handle .blindedCredentialSecretsCorrectnessProof, .handle .nonce, .handle .nonce,
        .handle .credentialValues, .handle .credentialPublicKey, .handle .credentialPrivateKey,
        .outHandle .credentialSignature, .outHandle .signatureCorrectnessProof],
      checks := [.str 0 .param1, .ref 1 .blindedCredentialSecrets .param2,
        .ref 2 .blindedCredentialSecretsCorrectnessProof .param3, .ref 3 .nonce .param4,
        .ref 4 .nonce .param5, .ref 5 .credentialValues .param6,
        .ref 6 .credentialPublicKey .param7, .ref 7 .credentialPrivateKey .param8,
        .ptr 8 .param10, .ptr 9 .param11],
      outs := [(8, .box .credentialSignature), (9, .box .signatureCorrectnessProof)] }
  -- libursa/src/ffi/cl/issuer.rs:1282-1399
  | .ursa_cl_issuer_sign_credential_with_revoc =>
    { params := [.cstr, .handle .blindedCredentialSecrets,
        .handle .blindedCredentialSecretsCorrectnessProof, .handle .nonce, .handle .nonce,
        .handle .credentialValues, .handle .credentialPublicKey, .handle .credentialPrivateKey,
        .scalar, .scalar, .scalar, .handle .revocationRegistry, .handle .revocationKeyPrivate,
        .ctx, .callback, .callback, .outHandle .credentialSignature,
        .outHandle .signatureCorrectnessProof, .outHandle .revocationRegistryDelta],
      checks := [.str 0 .param1, .ref 1 .blindedCredentialSecrets .param2,
        .ref 2 .blindedCredentialSecretsCorrectnessProof .param3, .ref 3 .nonce .param4,
        .ref 4 .nonce .param5, .ref 5 .credentialValues .param6,
        .ref 6 .credentialPublicKey .param7, .ref 7 .credentialPrivateKey .param8,
        .mutRef 11 .revocationRegistry .param12, .ref 12 .revocationKeyPrivate .invalidState,
        .ptr 16 .invalidState, .ptr 17 .invalidState, .ptr 18 .invalidState],
      outs := [(16, .box .credentialSignature), (17, .box .signatureCorrectnessProof),
        (18, .boxOrNull .revocationRegistryDelta)] }
  -- libursa/src/ffi/cl/issuer.rs:1408-1452
  | .ursa_cl_credential_signature_to_json =>
    { params := [.handle .credentialSignature, .outValue],
      checks := [.ref 0 .credentialSignature .param1, .ptr 1 .param2],
      outs := [(1, .value)] }
  -- libursa/src/ffi/cl/issuer.rs:1464-1504
  | .ursa_cl_credential_signature_from_json =>
    { params := [.cstr, .outHandle .credentialSignature],
      checks := [.str 0 .param1, .ptr 1 .param2],
      outs := [(1, .box .credentialSignature)] }
  -- libursa/src/ffi/cl/issuer.rs:1512-1531
  | .ursa_cl_credential_signature_free =>
    { params := [.handle .credentialSignature],
      checks := [.ptr 0 .param1],
      takes := [(0, .credentialSignature)],
      fallible := false }
  -- libursa/src/ffi/cl/issuer.rs:1540-1585
  | .ursa_cl_signature_correctness_proof_to_json =>
    { params := [.handle .signatureCorrectnessProof, .outValue],
      checks := [.ref 0 .signatureCorrectnessProof .param1, .ptr 1 .param2],
      outs := [(1, .value)] }
  -- libursa/src/ffi/cl/issuer.rs:1597-1642
  | .ursa_cl_signature_correctness_proof_from_json =>
    { params := [.cstr, .outHandle .signatureCorrectnessProof],
      checks := [.str 0 .param1, .ptr 1 .param2],
      outs := [(1, .box .signatureCorrectnessProof)] }
  -- libursa/src/ffi/cl/issuer.rs:1650-1672
  | .ursa_cl_signature_correctness_proof_free =>
    { params := [.handle .signatureCorrectnessProof],
      checks := [.ptr 0 .param1],
      takes := [(0, .signatureCorrectnessProof)],
      fallible := false }
  -- libursa/src/ffi/cl/issuer.rs:1681-1729
  | .ursa_cl_revocation_registry_delta_to_json =>
    { params := [.handle .revocationRegistryDelta, .outValue],
      checks := [.ref 0 .signatureCorrectnessProof .param1, .ptr 1 .param2],
      outs := [(1, .value)] }
  -- libursa/src/ffi/cl/issuer.rs:1741-1786
  | .ursa_cl_revocation_registry_delta_from_json =>
    { params := [.cstr, .outHandle .revocationRegistryDelta],
      checks := [.str 0 .param1, .ptr 1 .param2],
      outs := [(1, .box .signatureCorrectnessProof)] }
  -- libursa/src/ffi/cl/issuer.rs:1794-1813
  | .ursa_cl_revocation_registry_delta_free =>
    { params := [.handle .revocationRegistryDelta],
      checks := [.ptr 0 .param1],
      takes := [(0, .revocationRegistryDelta)],
      fallible := false }
  -- libursa/src/ffi/cl/issuer.rs:1817-1874
  | .ursa_revocation_registry_delta_from_parts =>
    { params := [.optHandle .revocationRegistry, .handle .revocationRegistry, .u32s, .u32sLen,
        .u32s, .u32sLen, .outHandle .revocationRegistryDelta],
      checks := [.optRef 0 .revocationRegistry, .ref 1 .revocationRegistry .param2,
        .hashset 2 3 .param3 .param4, .hashset 4 5 .param5 .param6],
      fallible := false,
      outs := [(6, .box .revocationRegistryDelta)] }
  -- libursa/src/ffi/cl/issuer.rs:1885-1920
  | .ursa_cl_issuer_revoke_credential =>
    { params := [.handle .revocationRegistry, .scalar, .scalar, .ctx, .callback, .callback,
        .outHandle .revocationRegistryDelta],
      checks := [.mutRef 0 .revocationRegistry .param1],
      outs := [(6, .box .revocationRegistryDelta)] }
  -- libursa/src/ffi/cl/issuer.rs:1931-1966
  | .ursa_cl_issuer_recovery_credential =>
    { params := [.handle .revocationRegistry, .scalar, .scalar, .ctx, .callback, .callback,
        .outHandle .revocationRegistryDelta],
      checks := [.mutRef 0 .revocationRegistry .param1],
      outs := [(6, .box .revocationRegistryDelta)] }
  -- libursa/src/ffi/cl/issuer.rs:1970-2008
  | .ursa_cl_issuer_merge_revocation_registry_deltas =>
    { params := [.handle .revocationRegistryDelta, .handle .revocationRegistryDelta,
        .outHandle .revocationRegistryDelta],
      checks := [.mutRef 0 .revocationRegistryDelta .param1,
        .ref 1 .revocationRegistryDelta .param2],
      outs := [(2, .box .unit)] }
  -- libursa/src/ffi/cl/prover.rs:18-47
  | .ursa_cl_prover_new_master_secret =>
    { params := [.outHandle .masterSecret],
      checks := [.ptr 0 .param1],
      outs := [(0, .box .masterSecret)] }
  -- libursa/src/ffi/cl/prover.rs:56-99
  | .ursa_cl_master_secret_to_json =>
    { params := [.handle .masterSecret, .outValue],
      checks := [.ref 0 .masterSecret .param1, .ptr 1 .param2],
      outs := [(1, .value)] }
  -- libursa/src/ffi/cl/prover.rs:111-153
  | .ursa_cl_master_secret_from_json =>
    { params := [.cstr, .outHandle .masterSecret],
      checks := [.str 0 .param1, .ptr 1 .param2],
      outs := [(1, .box .masterSecret)] }
  -- libursa/src/ffi/cl/prover.rs:161-178
  | .ursa_cl_master_secret_free =>
    { params := [.handle .masterSecret],
      checks := [.ptr 0 .param1],
      takes := [(0, .masterSecret)],
      fallible := false }
  -- libursa/src/ffi/cl/prover.rs:201-307
  | .ursa_cl_prover_blind_credential_secrets =>
    { params := [.handle .credentialPublicKey, .handle .credentialKeyCorrectnessProof,
        .handle .credentialValues, .handle .nonce, .outHandle .blindedCredentialSecrets,
        .outHandle .credentialSecretsBlindingFactors,
        .outHandle .blindedCredentialSecretsCorrectnessProof],
      checks := [.ref 0 .credentialPublicKey .param1,
        .ref 1 .credentialKeyCorrectnessProof .param2, .ref 2 .credentialValues .param3,
        .ref 3 .nonce .param4, .ptr 4 .param5, .ptr 5 .param6, .ptr 6 .param7],
      outs := [(4, .box .blindedCredentialSecrets), (5, .box .credentialSecretsBlindingFactors),
        (6, .box .blindedCredentialSecretsCorrectnessProof)] }
  -- libursa/src/ffi/cl/prover.rs:316-369
  | .ursa_cl_blinded_credential_secrets_to_json =>
    { params := [.handle .blindedCredentialSecrets, .outValue],
      checks := [.ref 0 .blindedCredentialSecrets .param1, .ptr 1 .param2],
      outs := [(1, .value)] }
  -- libursa/src/ffi/cl/prover.rs:381-422
  | .ursa_cl_blinded_credential_secrets_from_json =>
    { params := [.cstr, .outHandle .blindedCredentialSecrets],
      checks := [.str 0 .param1, .ptr 1 .param2],
      outs := [(1, .box .blindedCredentialSecrets)] }
  -- libursa/src/ffi/cl/prover.rs:430-453
  | .ursa_cl_blinded_credential_secrets_free =>
    { params := [.handle .blindedCredentialSecrets],
      checks := [.ptr 0 .param1],
      takes := [(0, .blindedCredentialSecrets)],
      fallible := false }
  -- libursa/src/ffi/cl/prover.rs:462-505
  | .ursa_cl_credential_secrets_blinding_factors_to_json =>
    { params := [.handle .credentialSecretsBlindingFactors, .outValue],
      checks := [.ref 0 .credentialSecretsBlindingFactors .param1, .ptr 1 .param2],
      outs := [(1, .value)] }
  -- libursa/src/ffi/cl/prover.rs:517-559
  | .ursa_cl_credential_secrets_blinding_factors_from_json =>
    { params := [.cstr, .outHandle .credentialSecretsBlindingFactors],
      checks := [.str 0 .param1, .ptr 1 .param2],
      outs := [(1, .box .credentialSecretsBlindingFactors)] }
  -- libursa/src/ffi/cl/prover.rs:567-588
  | .ursa_cl_credential_secrets_blinding_factors_free =>
    { params := [.handle .credentialSecretsBlindingFactors],
      checks := [.ptr 0 .param1],
      takes := [(0, .credentialSecretsBlindingFactors)],
      fallible := false }
  -- libursa/src/ffi/cl/prover.rs:597-643
  | .ursa_cl_blinded_credential_secrets_correctness_proof_to_json =>
    { params := [.handle .blindedCredentialSecretsCorrectnessProof, .outValue],
      checks := [.ref 0 .blindedCredentialSecretsCorrectnessProof .param1, .ptr 1 .param2],
      outs := [(1, .value)] }
  -- libursa/src/ffi/cl/prover.rs:655-701
  | .ursa_cl_blinded_credential_secrets_correctness_proof_from_json =>
    { params := [.cstr, .outHandle .blindedCredentialSecretsCorrectnessProof],
      checks := [.str 0 .param1, .ptr 1 .param2],
      outs := [(1, .box .blindedCredentialSecretsCorrectnessProof)] }
  -- libursa/src/ffi/cl/prover.rs:709-734
  | .ursa_cl_blinded_credential_secrets_correctness_proof_free =>
    { params := [.handle .blindedCredentialSecretsCorrectnessProof],
      checks := [.ptr 0 .param1],
      takes := [(0, .blindedCredentialSecretsCorrectnessProof)],
      fallible := false }
  -- libursa/src/ffi/cl/prover.rs:751-854
  | .ursa_cl_prover_process_credential_signature =>
    { params := [.handle .credentialSignature, .handle .credentialValues,
        .handle .signatureCorrectnessProof, .handle .credentialSecretsBlindingFactors,
        .handle .credentialPublicKey, .handle .nonce, .optHandle .revocationKeyPublic,
        .optHandle .revocationRegistry, .optHandle .witness],
      checks := [.mutRef 0 .credentialSignature .param1, .ref 1 .credentialValues .param2,
        .ref 2 .signatureCorrectnessProof .param3,
        .ref 3 .credentialSecretsBlindingFactors .param4, .ref 4 .credentialPublicKey .param5,
        .ref 5 .nonce .param6, .optRef 6 .revocationKeyPublic, .optRef 7 .revocationRegistry,
        .optRef 8 .witness] }
  -- libursa/src/ffi/cl/prover.rs:859-903
  | .ursa_cl_prover_get_credential_revocation_index =>
    { params := [.handle .credentialSignature, .outValue],
      checks := [.ref 0 .credentialSignature .param1],
      outs := [(1, .value)] }
  -- libursa/src/ffi/cl/prover.rs:916-945
  | .ursa_cl_prover_new_proof_builder =>
    { params := [.outHandle .proofBuilder],
      checks := [.ptr 0 .param1],
      outs := [(0, .box .proofBuilder)] }
  -- libursa/src/ffi/cl/prover.rs:955-977
  | .ursa_cl_proof_builder_add_common_attribute =>
    { params := [.handle .proofBuilder, .cstr],
      checks := [.mutRef 0 .proofBuilder .param1, .str 1 .param2] }
  -- libursa/src/ffi/cl/prover.rs:993-1098
  | .ursa_cl_proof_builder_add_sub_proof_request =>
    { params := [.handle .proofBuilder, .handle .subProofRequest, .handle .credentialSchema,
        .handle .nonCredentialSchema, .handle .credentialSignature, .handle .credentialValues,
        .handle .credentialPublicKey, .optHandle .revocationRegistry, .optHandle .witness],
      checks := [.mutRef 0 .proofBuilder .param1, .ref 1 .subProofRequest .param2,
        .ref 2 .credentialSchema .param3, .ref 3 .nonCredentialSchema .param4,
        .ref 4 .credentialSignature .param5, .ref 5 .credentialValues .param6,
        .ref 6 .credentialPublicKey .param7, .optRef 7 .revocationRegistry, .optRef 8 .witness] }
  -- libursa/src/ffi/cl/prover.rs:1111-1148
  | .ursa_cl_proof_builder_finalize =>
    { params := [.handle .proofBuilder, .handle .nonce, .outHandle .proof],
      checks := [.ptr 0 .param1, .ref 1 .nonce .param2, .ptr 2 .param3],
      takes := [(0, .proofBuilder)],
      outs := [(2, .box .proof)] }
  -- libursa/src/ffi/cl/prover.rs:1157-1191
  | .ursa_cl_proof_to_json =>
    { params := [.handle .proof, .outValue],
      checks := [.ref 0 .proof .param1, .ptr 1 .param2],
      outs := [(1, .value)] }
  -- libursa/src/ffi/cl/prover.rs:1202-1238
  | .ursa_cl_proof_from_json =>
    { params := [.cstr, .outHandle .proof],
      checks := [.str 0 .param1, .ptr 1 .param2],
      outs := [(1, .box .proof)] }
  -- libursa/src/ffi/cl/prover.rs:1246-1257
  | .ursa_cl_proof_free =>
    { params := [.handle .proof],
      checks := [.ptr 0 .param1],
      takes := [(0, .proof)],
      fallible := false }
  -- libursa/src/ffi/cl/verifier.rs:17-46
  | .ursa_cl_verifier_new_proof_verifier =>
    { params := [.outHandle .proofVerifier],
      checks := [.ptr 0 .param1],
      outs := [(0, .box .proofVerifier)] }
  -- libursa/src/ffi/cl/verifier.rs:56-82
  | .ursa_cl_proof_verifier_add_common_attribute =>
    { params := [.handle .proofVerifier, .cstr],
      checks := [.mutRef 0 .proofVerifier .param1, .str 1 .param2] }
  -- libursa/src/ffi/cl/verifier.rs:86-160
  | .ursa_cl_proof_verifier_add_sub_proof_request =>
    { params := [.handle .proofVerifier, .handle .subProofRequest, .handle .credentialSchema,
        .handle .nonCredentialSchema, .handle .credentialPublicKey,
        .optHandle .revocationKeyPublic, .optHandle .revocationRegistry],
      checks := [.mutRef 0 .proofVerifier .param1, .ref 1 .subProofRequest .param2,
        .ref 2 .credentialSchema .param3, .ref 3 .nonCredentialSchema .param4,
        .ref 4 .credentialPublicKey .param5, .optRef 5 .revocationKeyPublic,
        .optRef 6 .revocationRegistry] }
  -- libursa/src/ffi/cl/verifier.rs:171-201
  | .ursa_cl_proof_verifier_verify =>
    { params := [.handle .proofVerifier, .handle .proof, .handle .nonce, .outValue],
      checks := [.ptr 0 .param1, .ref 1 .proof .param2, .ref 2 .nonce .param3, .ptr 3 .param4],
      takes := [(0, .proofVerifier)],
      outs := [(3, .value)] }

end Verif.FFI
