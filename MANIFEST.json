{
 "claims": [
  {
   "property": "C01",
   "status": "proved",
   "theorems": [
    "RSA.C01_raw_inversion"
   ],
   "note": "all well-formed keys incl. multi-prime, with or without CRT values and blinding"
  },
  {
   "property": "C02",
   "status": "proved",
   "theorems": [
    "RSA.C02_crt_unobservable"
   ],
   "note": "all histories of precompute/clear"
  },
  {
   "property": "C03",
   "status": "proved",
   "theorems": [
    "RSA.C03_blinding_unobservable"
   ],
   "note": ""
  },
  {
   "property": "C04",
   "status": "proved",
   "theorems": [
    "RSA.C04_fault_safety",
    "RSA.C04_signature",
    "RSA.C04_typed_signature",
    "RSA.C04_pkcs1v15_plaintext",
    "RSA.C04_oaep_plaintext",
    "RSA.C22_salt_from_rng"
   ],
   "note": "no hypothesis on the private components The scheme-level forms assume nothing about the secret part of the key either; PSS is covered by C22_salt_from_rng."
  },
  {
   "property": "C05",
   "status": "proved",
   "theorems": [
    "RSA.C05_out_of_range"
   ],
   "note": ""
  },
  {
   "property": "C06",
   "status": "proved",
   "theorems": [
    "RSA.C06_encryption_round_trip"
   ],
   "note": ""
  },
  {
   "property": "C07",
   "status": "proved",
   "theorems": [
    "RSA.C07_encryption_shape"
   ],
   "note": ""
  },
  {
   "property": "C08",
   "status": "proved",
   "theorems": [
    "RSA.C08_unpad_accepts_exactly",
    "RSA.C08_decrypt_accepts_exactly"
   ],
   "note": "blocks below 2^31 bytes"
  },
  {
   "property": "C09",
   "status": "proved",
   "theorems": [
    "RSA.C09_signature_round_trip",
    "RSA.C09_typed_round_trip"
   ],
   "note": ""
  },
  {
   "property": "C10",
   "status": "proved",
   "theorems": [
    "RSA.C10_verify_exact",
    "RSA.C10_typed_verify_exact"
   ],
   "note": "signature strings below 2^29 bytes (longer ones overflow the u32 bit count)"
  },
  {
   "property": "C100",
   "status": "proved",
   "theorems": [
    "RSA.C100_value",
    "RSA.C100_gives_q",
    "RSA.C100_gives_p",
    "RSA.C100_checked",
    "RSA.C100_pkcs1v15",
    "RSA.C100_pss",
    "RSA.C100_oaep",
    "RSA.C100_how_often",
    "RSA.C100_at_most_half"
   ],
   "note": "A fault is a change of the stored numbers, not of the arithmetic; the moduli cached beside them are taken to be sound. Every result of the checked operation satisfies m^e = c for any key object at all (C04)."
  },
  {
   "property": "C101",
   "status": "proved",
   "theorems": [
    "RSA.C101_public_product",
    "RSA.C101_private_product",
    "RSA.C101_borrowed",
    "RSA.C101_unconcealed",
    "RSA.C101_at_least",
    "RSA.C101_always",
    "RSA.C101_cycle",
    "RSA.C101_cycle_exists",
    "RSA.C101_cycling",
    "RSA.C101_jacobi",
    "RSA.C101_signature_product",
    "RSA.C101_trivial_signatures",
    "RSA.C101_trivial_ciphertexts",
    "RSA.C101_trivial_pss"
   ],
   "note": "OAEP decryption of 0 and PSS verification of n-1 depend on the hash function and are not excluded."
  },
  {
   "property": "C102",
   "status": "proved",
   "theorems": [
    "RSA.C102_pkcs1v15",
    "RSA.C102_pss",
    "RSA.C102_oaep",
    "RSA.C102_generated",
    "RSA.C102_keys",
    "RSA.C102_verify",
    "RSA.C102_private",
    "RSA.C102_encrypt",
    "RSA.C102_long_signature",
    "RSA.C102_salt_overflow",
    "RSA.C102_salt_overflow_genuine",
    "RSA.C102_prefix"
   ],
   "note": "Debug assertions inside crypto-bigint are kept in both builds: what its Montgomery forms do with operands of different precision without them is not modelled."
  },
  {
   "property": "C103",
   "status": "proved",
   "theorems": [
    "RSA.C103_word8",
    "RSA.C103_pkcs1v15",
    "RSA.C103_pss",
    "RSA.C103_typed",
    "RSA.C103_wider",
    "RSA.C103_lengths",
    "RSA.C103_to_bytes",
    "RSA.C103_interop",
    "RSA.C103_refused",
    "RSA.C103_ciphertext"
   ],
   "note": "Verification and the signature types only; the private operations are modelled for words of eight octets."
  },
  {
   "property": "C104",
   "status": "proved",
   "theorems": [
    "RSA.C104_word8",
    "RSA.C104_word8_schemes",
    "RSA.C104_word8_precompute",
    "RSA.C104_private",
    "RSA.C104_precompute",
    "RSA.C104_same",
    "RSA.C104_check",
    "RSA.C104_pkcs1v15",
    "RSA.C104_pss",
    "RSA.C104_product",
    "RSA.C104_own",
    "RSA.C104_long_ciphertext"
   ],
   "note": "Padding functions keep the arithmetic of a 64-bit usize; the Montgomery parameters of a public key are those of its modulus. Encryption and the acceptance of keys are in C105."
  },
  {
   "property": "C105",
   "status": "proved",
   "theorems": [
    "RSA.C105_word8",
    "RSA.C105_word8_encrypt",
    "RSA.C105_validate",
    "RSA.C105_public",
    "RSA.C105_private",
    "RSA.C105_everywhere",
    "RSA.C105_encrypt",
    "RSA.C105_wrapped"
   ],
   "note": "DER parsing and padding functions keep the arithmetic of a 64-bit usize. Of from_components the part with two factors is repeated, which is all a document leads to; from_p_q and from_primes are in C106."
  },
  {
   "property": "C106",
   "status": "proved",
   "theorems": [
    "RSA.C106_word8",
    "RSA.C106_from_p_q",
    "RSA.C106_from_primes",
    "RSA.C106_same_p_q",
    "RSA.C106_same_primes",
    "RSA.C106_own"
   ],
   "note": "Of from_components the part with two or more factors is repeated; without factors it is in C108. Key generation is in C107."
  },
  {
   "property": "C107",
   "status": "proved",
   "theorems": [
    "RSA.C107_word8",
    "RSA.C107_key",
    "RSA.C107_components",
    "RSA.C107_same",
    "RSA.C107_own"
   ],
   "note": "The external prime search is a parameter; that two machines find the same primes is a hypothesis, as how the search turns random words into candidates is the business of another crate."
  },
  {
   "property": "C108",
   "status": "proved",
   "theorems": [
    "RSA.C108_word8",
    "RSA.C108_word8_key",
    "RSA.C108_sound",
    "RSA.C108_complete",
    "RSA.C108_outcomes",
    "RSA.C108_never_succeeds",
    "RSA.C108_same",
    "RSA.C108_differ"
   ],
   "note": "That from_components without factors never makes a key is a defect (compare C52), proved here for every size of word."
  },
  {
   "property": "C109",
   "status": "proved",
   "theorems": [
    "RSA.C109_word8",
    "RSA.C109_public",
    "RSA.C109_private",
    "RSA.C109_from_p_q",
    "RSA.C109_wide_panics"
   ],
   "note": "The bytes of tags and lengths are those of the model of the der crate in Model/Der.lean."
  },
  {
   "property": "C11",
   "status": "proved",
   "theorems": [
    "RSA.C11_signature_unique"
   ],
   "note": ""
  },
  {
   "property": "C12",
   "status": "partial",
   "theorems": [
    "RSA.C12_wrong_length_rejected_partial",
    "RSA.C12_wrong_length_accepted",
    "RSA.C12_zero_prefix_accepted"
   ],
   "note": "the full statement is false of the code: lengths with the same limb count are accepted"
  },
  {
   "property": "C13",
   "status": "proved",
   "theorems": [
    "RSA.C13_digest_info",
    "RSA.C13_digest_info_only"
   ],
   "note": ""
  },
  {
   "property": "C14",
   "status": "proved",
   "theorems": [
    "RSA.C14_oaep_round_trip"
   ],
   "note": ""
  },
  {
   "property": "C15",
   "status": "proved",
   "theorems": [
    "RSA.C15_oaep_unpad_exact",
    "RSA.C15_oaep_decrypt_exact"
   ],
   "note": ""
  },
  {
   "property": "C16",
   "status": "proved",
   "theorems": [
    "RSA.C16_label_binding"
   ],
   "note": ""
  },
  {
   "property": "C17",
   "status": "proved",
   "theorems": [
    "RSA.C17_oaep_shape",
    "RSA.C17_oaep_label_limit"
   ],
   "note": ""
  },
  {
   "property": "C18",
   "status": "proved",
   "theorems": [
    "RSA.C18_pss_round_trip",
    "RSA.C18_typed_round_trip"
   ],
   "note": "Scheme object for every well-formed key; typed keys for moduli stored without spare limbs (otherwise see C50)."
  },
  {
   "property": "C19",
   "status": "proved",
   "theorems": [
    "RSA.C19_pss_block_exact",
    "RSA.C19_pss_verify_exact",
    "RSA.C19_typed_verify_exact"
   ],
   "note": ""
  },
  {
   "property": "C20",
   "status": "partial",
   "theorems": [
    "RSA.C20_below_n_partial",
    "RSA.C20_above_n_accepted",
    "RSA.C20_congruent_accepted"
   ],
   "note": "False for the Pss scheme object: s+n is accepted (witness and general theorem). Proved for VerifyingKey."
  },
  {
   "property": "C21",
   "status": "partial",
   "theorems": [
    "RSA.C21_overflow_partial",
    "RSA.C21_overflow_accepted"
   ],
   "note": "False when the modulus has 8j+1 bits: the surplus leading byte of the recovered block is never compared with 0 (witness). Proved for all other sizes."
  },
  {
   "property": "C22",
   "status": "proved",
   "theorems": [
    "RSA.C22_salt_from_rng",
    "RSA.C22_typed_salt_from_rng"
   ],
   "note": ""
  },
  {
   "property": "C23",
   "status": "proved",
   "theorems": [
    "RSA.C23_mgf1",
    "RSA.C23_mgf1_involution",
    "RSA.C23_mask_too_long"
   ],
   "note": ""
  },
  {
   "property": "C24",
   "status": "proved",
   "theorems": [
    "RSA.C24_oaep_agree",
    "RSA.C24_oaep_label_error",
    "RSA.C24_pss_agree"
   ],
   "note": ""
  },
  {
   "property": "C25",
   "status": "proved",
   "theorems": [
    "RSA.C25_i2osp"
   ],
   "note": ""
  },
  {
   "property": "C26",
   "status": "proved",
   "theorems": [
    "RSA.C26_public_key_acceptance",
    "RSA.C26_new_unchecked"
   ],
   "note": "iff for every outcome, all size limits"
  },
  {
   "property": "C27",
   "status": "partial",
   "theorems": [
    "RSA.C27_validate_partial",
    "RSA.C27_from_components",
    "RSA.C27_product_wraps"
   ],
   "note": "validate is characterised exactly; the claim that the product equals n is false (product taken modulo 2^precision, witness with two Mersenne primes)"
  },
  {
   "property": "C28",
   "status": "partial",
   "theorems": [
    "RSA.C28_returns_partial",
    "RSA.C28_factor_one_panics",
    "RSA.C28_narrow_d_panics",
    "RSA.C28_zero_d_panics"
   ],
   "note": "false: a factor 1, a narrow d, or d = 0 without factors panics (general theorems); proved to return otherwise when factors are supplied"
  },
  {
   "property": "C29",
   "status": "proved",
   "theorems": [
    "RSA.C29_from_p_q",
    "RSA.C29_from_primes"
   ],
   "note": ""
  },
  {
   "property": "C30",
   "status": "proved",
   "theorems": [
    "RSA.C30_recovery_sound",
    "RSA.C30_recovery_complete",
    "RSA.C30_recovery_outcomes"
   ],
   "note": "completeness in the range where the method works, stated as an inequality"
  },
  {
   "property": "C31",
   "status": "proved",
   "theorems": [
    "RSA.C31_components",
    "RSA.C31_generated_key"
   ],
   "note": "for every prime search returning primes and every fuel; the f64 estimate of available primes is modelled over the rationals"
  },
  {
   "property": "C32",
   "status": "partial",
   "theorems": [
    "RSA.C32_errors_partial",
    "RSA.C32_even_exponent_no_key",
    "RSA.C32_even_exponent_runs_forever"
   ],
   "note": "the claim is false of the code: the only errors are the size checks, and an even exponent makes the loop run forever (proved for every fuel)"
  },
  {
   "property": "C33",
   "status": "partial",
   "theorems": [
    "RSA.C33_eq_hash_partial",
    "RSA.C33_eq_distinguishes",
    "RSA.C33_equal_keys_hash_differently"
   ],
   "note": "false for keys stored at different precisions: equal but different hash"
  },
  {
   "property": "C34",
   "status": "proved",
   "theorems": [
    "RSA.C34_debug_noninterference"
   ],
   "note": ""
  },
  {
   "property": "C35",
   "status": "partial",
   "theorems": [
    "RSA.C35_erased_partial",
    "RSA.C35_crt_values_survive"
   ],
   "note": "false when CRT values are cached: the Montgomery parameters keep both primes, and the CRT coefficient stays"
  },
  {
   "property": "C36",
   "status": "partial",
   "theorems": [
    "RSA.C36_private_round_trip_partial",
    "RSA.C36_well_formed_round_trip",
    "RSA.C36_from_p_q_round_trip",
    "RSA.C36_long_exponent_fails",
    "RSA.C55_refused"
   ],
   "note": "Exact characterisation of the validated two-prime keys that round trip; keys from from_p_q on primes and well-formed keys with d < n always do. Full claim is false: a validated key whose d has more octets than n encodes but does not decode; non-coprime primes are refused at encoding. More than two primes: refused (proved)."
  },
  {
   "property": "C37",
   "status": "proved",
   "theorems": [
    "RSA.C37_public_round_trip",
    "RSA.C37_encoding_injective"
   ],
   "note": "Valid = check_public holds (modulus at most 4096 bits of storage). Injectivity for all keys with fields below 2^23 bits."
  },
  {
   "property": "C38",
   "status": "proved",
   "theorems": [
    "RSA.C38_crt_fields_ignored",
    "RSA.C38_crt_fields_ignored_parsed"
   ],
   "note": "On the encoded level for fields below 2^20-1 octets, on the parsed level without bound."
  },
  {
   "property": "C39",
   "status": "proved",
   "theorems": [
    "RSA.C39_algorithm_identifiers",
    "RSA.C39_key_decoders"
   ],
   "note": ""
  },
  {
   "property": "C40",
   "status": "partial",
   "theorems": [
    "RSA.C40_signature_round_trip_partial",
    "RSA.C40_string_changes"
   ],
   "note": "String round trip holds exactly for lengths that are positive multiples of 8; false otherwise (witness). Object round trip proved."
  },
  {
   "property": "C41",
   "status": "partial",
   "theorems": [
    "RSA.C41_algorithm_identifier_partial",
    "RSA.C41_published_salt_used_partial",
    "RSA.C41_salt_truncated"
   ],
   "note": "Exactly for salt lengths below 256; a 256-byte salt is published as 0 (witness with a 3482-bit key)."
  },
  {
   "property": "C42",
   "status": "partial",
   "theorems": [
    "RSA.C42_private_wrappers_partial",
    "RSA.C42_public_wrappers_partial",
    "RSA.C42_salt_len_lost",
    "RSA.C42_prefix_changes"
   ],
   "note": "Exact: inner keys and OAEP labels survive; salt lengths and prefixes are reset to the hash's defaults (witnesses). The serde byte layer is C63."
  },
  {
   "property": "C43",
   "status": "partial",
   "theorems": [
    "RSA.C43_verify_returns_partial",
    "RSA.C43_long_signature_panics",
    "RSA.C43_salt_overflow_panics"
   ],
   "note": "Returns for every input below 2^29 signature bytes and salt lengths that do not overflow usize; both remaining ranges are proved to panic."
  },
  {
   "property": "C44",
   "status": "proved",
   "theorems": [
    "RSA.C44_decrypt_returns",
    "RSA.C44_constructed_keys",
    "RSA.C44_narrow_exponent_panics"
   ],
   "note": "Proved for well-formed keys and beyond (every key object with d stored at least as wide as n); a constructible key with narrower d is proved to panic."
  },
  {
   "property": "C45",
   "status": "proved",
   "theorems": [
    "RSA.C45_encrypt",
    "RSA.C45_encrypt_first_call",
    "RSA.C45_private"
   ],
   "note": ""
  },
  {
   "property": "C46",
   "status": "partial",
   "theorems": [
    "RSA.C46_pkcs1v15_agree",
    "RSA.C46_pss_sign_agree",
    "RSA.C46_pss_verify_agree_partial",
    "RSA.C46_oaep_agree",
    "RSA.C46_pss_verify_differs"
   ],
   "note": "All agree except PSS verification, which differs outside k-octet strings below n (witness)."
  },
  {
   "property": "C47",
   "status": "partial",
   "theorems": [
    "RSA.C47_public_op_partial",
    "RSA.C47_wide_witness"
   ],
   "note": "the full statement is false for m wider than the modulus"
  },
  {
   "property": "C48",
   "status": "partial",
   "theorems": [
    "RSA.C48_reduced_partial",
    "RSA.C48_unreduced_witness"
   ],
   "note": "the full statement is false for corrupted CRT values without blinding"
  },
  {
   "property": "C49",
   "status": "partial",
   "theorems": [
    "RSA.C49_genuine_verify_partial",
    "RSA.C49_spare_limbs_reject"
   ],
   "note": "the full statement is false for moduli with spare limbs"
  },
  {
   "property": "C50",
   "status": "partial",
   "theorems": [
    "RSA.C50_genuine_verify_partial",
    "RSA.C50_spare_limbs_reject"
   ],
   "note": "False for moduli stored with spare limbs: every k-byte signature is rejected. Proved for moduli without spare limbs."
  },
  {
   "property": "C51",
   "status": "partial",
   "theorems": [
    "RSA.C51_factors_partial",
    "RSA.C51_repeated_prime_accepted",
    "RSA.C51_composite_accepted"
   ],
   "note": "false: witnesses with a repeated and a composite factor that decrypt wrongly without error; partial: oddness, > 1 and exponent congruence"
  },
  {
   "property": "C52",
   "status": "partial",
   "theorems": [
    "RSA.C30_recovery_complete",
    "RSA.C52_never_succeeds",
    "RSA.C52_genuine_key_panics"
   ],
   "note": "false: never succeeds for any input (storage widths); the recovery itself is correct (C30)"
  },
  {
   "property": "C53",
   "status": "partial",
   "theorems": [
    "RSA.C53_from_p_q_partial",
    "RSA.C53_even_panics",
    "RSA.C53_zero_panics",
    "RSA.C53_wide_exponent_panics",
    "RSA.C74_from_p_q_total",
    "RSA.C74_from_primes_total"
   ],
   "note": "false: even or zero factors and wide exponents panic; from_p_q returns for odd factors > 1 and narrow exponents; C74_from_p_q_total and C74_from_primes_total give the exact set of panicking inputs (factors equal to 1 excepted)"
  },
  {
   "property": "C54",
   "status": "proved",
   "theorems": [
    "RSA.C54_first_usable_pair",
    "RSA.C54_too_large"
   ],
   "note": ""
  },
  {
   "property": "C55",
   "status": "proved",
   "theorems": [
    "RSA.C55_private_encoding_exact",
    "RSA.C55_refused"
   ],
   "note": "Primes stored no wider than d (otherwise the encoder panics), d below 2^23 bits."
  },
  {
   "property": "C56",
   "status": "proved",
   "theorems": [
    "RSA.C56_public_decoding_strict"
   ],
   "note": "Relative to the model of the der/spki/pkcs1 crates (DESIGN.md)."
  },
  {
   "property": "C57",
   "status": "proved",
   "theorems": [
    "RSA.C57_private_decoding_sound"
   ],
   "note": "Relative to the model of the der/pkcs8/pkcs1 crates (DESIGN.md)."
  },
  {
   "property": "C58",
   "status": "partial",
   "theorems": [
    "RSA.C58_private_decoding_returns_partial",
    "RSA.C58_prime_one_panics"
   ],
   "note": "Returns for every input whose parsed primes are not 1. False otherwise: primes 1 and n make the decoder panic for every acceptable public key."
  },
  {
   "property": "C59",
   "status": "proved",
   "theorems": [
    "RSA.C59_equal_private_keys",
    "RSA.C59_equal_public_keys",
    "RSA.C59_typed_equality"
   ],
   "note": ""
  },
  {
   "property": "C60",
   "status": "partial",
   "theorems": [
    "RSA.C60_signature_length_partial",
    "RSA.C60_longer"
   ],
   "note": "True exactly when 8 divides the octet length; witness otherwise."
  },
  {
   "property": "C61",
   "status": "proved",
   "theorems": [
    "RSA.C61_placeholder_unused"
   ],
   "note": ""
  },
  {
   "property": "C62",
   "status": "proved",
   "theorems": [
    "RSA.C62_sign_returns",
    "RSA.C62_encrypt_returns"
   ],
   "note": ""
  },
  {
   "property": "C63",
   "status": "proved",
   "theorems": [
    "RSA.C63_byte_layer",
    "RSA.C63_keys",
    "RSA.C63_typed_keys",
    "RSA.C63_signatures"
   ],
   "note": "serdect/base16ct modelled as hex text or raw bytes; private keys under the same hypotheses as the PKCS#8 round trip (C38)."
  },
  {
   "property": "C64",
   "status": "proved",
   "theorems": [
    "RSA.C64_signature_text"
   ],
   "note": ""
  },
  {
   "property": "C65",
   "status": "partial",
   "theorems": [
    "RSA.C65_pss_identifier_partial",
    "RSA.C65_pkcs1v15_identifier"
   ],
   "note": "PSS: the salt length is published modulo 256, so the identifier is the right one exactly for salt lengths below 256 (iff proved)."
  },
  {
   "property": "C66",
   "status": "partial",
   "theorems": [
    "RSA.C66_storage",
    "RSA.C66_generated_key_works_partial",
    "RSA.C66_own_signatures_rejected"
   ],
   "note": "PKCS#1 v1.5 and typed PSS verification fail for sizes 128j+r with 2<=r<=64, because n is stored with a spare limb and verification compares precisions; C66_own_signatures_rejected proves the failure"
  },
  {
   "property": "C67",
   "status": "proved",
   "theorems": [
    "RSA.C67_pkcs1v15_binding",
    "RSA.C67_hash_function_bound",
    "RSA.C67_pkcs1v15_messages",
    "RSA.C67_pss_binding",
    "RSA.C67_pss_messages"
   ],
   "note": "For the scheme objects; equal hashes are the best possible conclusion."
  },
  {
   "property": "C68",
   "status": "proved",
   "theorems": [
    "RSA.C68_oaep",
    "RSA.C68_pkcs1v15"
   ],
   "note": "The OAEP part is for the Dyn entry point with fresh digest states."
  },
  {
   "property": "C69",
   "status": "proved",
   "theorems": [
    "RSA.C69_draw",
    "RSA.C69_uniform",
    "RSA.C69_gcd_kept"
   ],
   "note": "States the bijection; the probability statement about the generator follows from it but is not formalised."
  },
  {
   "property": "C70",
   "status": "partial",
   "theorems": [
    "RSA.C70_same_program",
    "RSA.C70_pkcs1v15_padding",
    "RSA.C70_oaep_padding",
    "RSA.C70_pkcs1v15_decrypt_partial",
    "RSA.C70_oaep_decrypt_partial",
    "RSA.C70_pkcs1v15_success",
    "RSA.C70_rejections_distinguishable",
    "RSA.C70_oaep_first_octet"
   ],
   "note": "False of the code: uint_to_zeroizing_be_pad slices the plaintext by its own number of leading zero octets. C70_rejections_distinguishable proves, for every well-formed key with a modulus of two or more octets, two ciphertexts rejected with the same error and different observations; C70_oaep_first_octet is the oracle of Manger's attack. The _partial theorems characterise exactly what is observed (outcome and number of octets of the decrypted integer); the padding removal itself and successful PKCS#1 v1.5 decryptions meet the claim in full. The private operation is observed as a sequence of bignum calls with operand sizes (C76); what happens inside one bignum call, in the compiler and in the hardware is outside the model."
  },
  {
   "property": "C71",
   "status": "proved",
   "theorems": [
    "RSA.C71_same_as_wrapped",
    "RSA.C71_public_exact",
    "RSA.C71_public_round_trip",
    "RSA.C71_private_encoding_exact",
    "RSA.C71_private_decoding_sound",
    "RSA.C71_private_round_trip",
    "RSA.C71_private_returns"
   ],
   "note": "The blanket implementations of the pkcs1 crate (external) are modelled over this crate's PKCS#8 code."
  },
  {
   "property": "C72",
   "status": "proved",
   "theorems": [
    "RSA.C72_accessors",
    "RSA.C72_random",
    "RSA.C72_drawn_keys_sign",
    "RSA.C72_conversions",
    "RSA.C72_debug",
    "RSA.C72_display"
   ],
   "note": "C72_drawn_keys_sign assumes the external prime search returns primes with the two top bits set; for the other bit sizes C66 shows the negation."
  },
  {
   "property": "C73",
   "status": "proved",
   "theorems": [
    "RSA.C73_rounding_irrelevant",
    "RSA.C73_real_formula",
    "RSA.C73_refused",
    "RSA.C73_unchecked_runs_forever",
    "RSA.C73_unchecked_panics"
   ],
   "note": "f64.round_rounds shows that IEEE 754 binary64 rounding meets the hypothesis of C73_rounding_irrelevant; only the internal function takes a number of primes, the public constructors always ask for two"
  },
  {
   "property": "C74",
   "status": "proved",
   "theorems": [
    "RSA.C74_validate",
    "RSA.C74_precompute",
    "RSA.C74_from_components",
    "RSA.C74_from_components_no_factors",
    "RSA.C74_from_p_q",
    "RSA.C74_from_primes",
    "RSA.C74_from_p_q_total",
    "RSA.C74_from_primes_total"
   ],
   "note": "exact error, panic and success conditions of validate, precompute, from_components (with and without factors), from_p_q and from_primes over the stored values; the two total theorems cover every input whose factors are not 1 (a factor 1 makes the code invert modulo zero inside the big-integer crate)"
  },
  {
   "property": "C75",
   "status": "proved",
   "theorems": [
    "RSA.C75_private_verdict",
    "RSA.C75_pkcs1_verdict",
    "RSA.C75_pkcs8_verdict",
    "RSA.C75_one_error"
   ],
   "note": "accept, crash and refuse are characterised for every input as conditions on the numbers in the document; the envelope parser itself belongs to the pkcs8 crate and is assumed"
  },
  {
   "property": "C76",
   "status": "proved",
   "theorems": [
    "RSA.C76_same_program",
    "RSA.C76_private_operation",
    "RSA.C76_same_key",
    "RSA.C76_pkcs1v15_sign",
    "RSA.C76_pss_sign_with_salt",
    "RSA.C76_pss_sign",
    "RSA.C76_pkcs1v15_encrypt",
    "RSA.C76_oaep_encrypt"
   ],
   "note": "Instrumented copies of the model emit branches, indices, ranges, lengths and, for each call into the bignum crate, which call with operands of which sizes. What the bignum crate, the compiler and the hardware do inside one such call is outside the model; calls whose names say they are variable-time (rem_vartime in reduce_vartime, gcd and inversion of the blinding factor) are recorded like the others, by sizes."
  },
  {
   "property": "C77",
   "status": "proved",
   "theorems": [
    "RSA.C77_public_verdict",
    "RSA.C77_private_verdict",
    "RSA.C77_serde"
   ],
   "note": "Crashes need a key no constructor of the crate returns (constructors refuse factors 0 and 1, and crash themselves on narrow exponents). DER writing is the der crate's, modelled (limit 2^28 octets of content)."
  },
  {
   "property": "C78",
   "status": "proved",
   "theorems": [
    "RSA.C78_pkcs1v15",
    "RSA.C78_oaep"
   ],
   "note": "exact graph of the encryption functions, including the generator state"
  },
  {
   "property": "C79",
   "status": "proved",
   "theorems": [
    "RSA.C79_pkcs1v15",
    "RSA.C79_oaep",
    "RSA.C79_oaep_typed"
   ],
   "note": "exact graph of the decryption functions"
  },
  {
   "property": "C80",
   "status": "proved",
   "theorems": [
    "RSA.C80_pkcs1v15",
    "RSA.C80_pss",
    "RSA.C80_pkcs1v15_typed",
    "RSA.C80_pss_typed"
   ],
   "note": "exact graph of the signing functions"
  },
  {
   "property": "C81",
   "status": "proved",
   "theorems": [
    "RSA.C81_pkcs1v15",
    "RSA.C81_pss"
   ],
   "note": "exact graph of the scheme verifiers, strings of every length"
  },
  {
   "property": "C82",
   "status": "proved",
   "theorems": [
    "RSA.C82_pkcs1v15_padding",
    "RSA.C82_mgf1",
    "RSA.C82_oaep_padding",
    "RSA.C82_conversion",
    "RSA.C82_private_operation",
    "RSA.C82_pkcs1v15_decrypt",
    "RSA.C82_oaep_decrypt",
    "RSA.C82_pkcs1v15_sign",
    "RSA.C82_pss_sign_with_salt",
    "RSA.C82_pss_sign",
    "RSA.C82_pkcs1v15_encrypt",
    "RSA.C82_oaep_encrypt"
   ],
   "note": "Exact traces of the observed programs of C70 and C76; the observed programs compute what the others compute (C70_same_program, C76_same_program)."
  },
  {
   "property": "C83",
   "status": "proved",
   "theorems": [
    "RSA.C83_components",
    "RSA.C83_new_with_exp"
   ],
   "note": "an iff with a written-out relation that has one outcome for every request; relative to the assumed interface of the external prime search"
  },
  {
   "property": "C84",
   "status": "proved",
   "theorems": [
    "RSA.C84_pkcs8",
    "RSA.C84_pkcs1",
    "RSA.C84_public",
    "RSA.C84_typed",
    "RSA.C84_serde"
   ],
   "note": "the byte grammar is written from the RFCs in Spec/Document.lean and Spec/Der.lean; relative to the modelled external DER crates"
  },
  {
   "property": "C85",
   "status": "proved",
   "theorems": [
    "RSA.C85_raw_private",
    "RSA.C85_decrypt",
    "RSA.C85_checked"
   ],
   "note": "With and without blinding, checked and unchecked. Hypotheses are invariants of key objects made by the constructors and precompute; no correctness of the key is assumed."
  },
  {
   "property": "C86",
   "status": "proved",
   "theorems": [
    "RSA.C86_pkcs1v15_decrypt",
    "RSA.C86_oaep_decrypt",
    "RSA.C86_oaep_decrypt_typed",
    "RSA.C86_pkcs1v15_sign",
    "RSA.C86_pss_sign",
    "RSA.C86_pkcs1v15_sign_typed",
    "RSA.C86_pss_sign_typed",
    "RSA.C86_in_range"
   ],
   "note": "Hypotheses are invariants of key objects made by the constructors and precompute; no correctness of the key is assumed. OAEP and PSS: modulus stored in fewer than 2^32 bits, digests of at least one octet. C79 and C80 are the same for correct keys, in closed form."
  },
  {
   "property": "C87",
   "status": "proved",
   "theorems": [
    "RSA.C87_parse",
    "RSA.C87_pkcs1v15",
    "RSA.C87_pss",
    "RSA.C87_pss_string",
    "RSA.C87_serde",
    "RSA.C87_bitstring"
   ],
   "note": "Each statement is an equivalence between the result of the modelled call and an inductively defined outcome, for every input and every result. For PSS the modulus is stored in fewer than 2^32 bits and the digest is not empty; no bound on the salt length."
  },
  {
   "property": "C88",
   "status": "proved",
   "theorems": [
    "RSA.C88_padding",
    "RSA.C88_pkcs1v15",
    "RSA.C88_oaep",
    "RSA.C88_pss",
    "RSA.C88_blinding"
   ],
   "note": "Counts of generator tapes per outcome: padding strings, OAEP seeds and PSS salts come up equally often; the blinded value is uniform over the units except that the unblinded value comes up twice as often. Tapes of octets serve buffers, tapes of numbers serve random_mod; PSS is counted without blinding, which would need both."
  },
  {
   "property": "C89",
   "status": "proved",
   "theorems": [
    "RSA.C89_same_program",
    "RSA.C89_validate",
    "RSA.C89_precompute",
    "RSA.C89_recover",
    "RSA.C89_build",
    "RSA.C89_alike",
    "RSA.C89_components",
    "RSA.C89_generate"
   ],
   "note": "Observations are branches, indices and bignum calls with operand sizes, as in C70; the insides of the bignum crate and of the prime search are not observed. Generation assumes that the prime search returns numbers of the length asked for."
  },
  {
   "property": "C90",
   "status": "proved",
   "theorems": [
    "RSA.C90_journey",
    "RSA.C90_same_numbers",
    "RSA.C90_never_stuck",
    "RSA.C90_one_form",
    "RSA.C90_same_output",
    "RSA.C90_ciphertexts",
    "RSA.C90_signatures",
    "RSA.C90_portable_sources"
   ],
   "note": "Steps and journeys are defined in Spec/Journey.lean. Multi-prime keys and keys with d at least n are not covered: their documents are refused (C36)."
  },
  {
   "property": "C91",
   "status": "proved",
   "theorems": [
    "RSA.C91_accepts_exactly",
    "RSA.C91_round_trip",
    "RSA.C91_positional",
    "RSA.C91_positional_exactly",
    "RSA.C91_verdict",
    "RSA.C91_document_determines",
    "RSA.C91_still_decrypts",
    "RSA.C91_hash_not_bound",
    "RSA.C91_label_not_required",
    "RSA.C91_schemes",
    "RSA.C91_secret_not_public"
   ],
   "note": "What serde's derive macro generates is written out in Model/SerdeStruct.lean: fields by name, unknown names skipped, repeated and missing fields refused, a missing Option is None. It is an assumption about serde. How a format maps its own syntax to named values is outside the model."
  },
  {
   "property": "C92",
   "status": "proved",
   "theorems": [
    "RSA.C92_turn",
    "RSA.C92_simulated",
    "RSA.C92_same_public_same_service",
    "RSA.C92_history_determined",
    "RSA.C92_blinding_unseen",
    "RSA.C92_public_asks",
    "RSA.C92_opened_as_sealed",
    "RSA.C92_checked_as_signed",
    "RSA.C92_always_answered",
    "RSA.C92_spare_limbs_seen"
   ],
   "note": "Equality of histories, as relations; nothing is said about timing (C70, C89) or about computing d from the answers. Copies with spare limbs that were never written and read back are excluded, with a witness that they can be told apart (C92_spare_limbs_seen)."
  },
  {
   "property": "C93",
   "status": "proved",
   "theorems": [
    "RSA.C93_operations",
    "RSA.C93_sessions",
    "RSA.C93_watch_answers",
    "RSA.C93_twins",
    "RSA.C93_storage_seen"
   ],
   "note": "Observations are those of Model/Leak.lean and Model/LeakOps.lean: bignum calls are single events carrying storage sizes, so what the bignum crate leaks inside is not covered. C93_twins builds twins for keys without CRT values; for keys with them there is the example Ex.swapped_twins."
  },
  {
   "property": "C94",
   "status": "proved",
   "theorems": [
    "RSA.C94_padding",
    "RSA.C94_padding_fails",
    "RSA.C94_padding_ends",
    "RSA.C94_padding_redraws",
    "RSA.C94_padding_law",
    "RSA.C94_blinding",
    "RSA.C94_wasted",
    "RSA.C94_blinding_ends",
    "RSA.C94_blinding_redraws",
    "RSA.C94_blinding_law",
    "RSA.C94_pkcs1v15",
    "RSA.C94_operations",
    "RSA.C94_pss"
   ],
   "note": "Uniform draws are counted over tapes (Spec/Rejection, Spec/Uniform); try_random_mod is taken to read one number below n per call. The limits and sums are over the reals. Nothing is said about generators that are not uniform: one that only gives zeros keeps the padding loop running (C78)."
  },
  {
   "property": "C95",
   "status": "proved",
   "theorems": [
    "RSA.C95_searching",
    "RSA.C95_found",
    "RSA.C95_turns",
    "RSA.C95_law",
    "RSA.C95_ends",
    "RSA.C95_hits",
    "RSA.C95_key",
    "RSA.C95_key_law",
    "RSA.C95_equally_likely"
   ],
   "note": "The prime search is any function of fresh random choices; that crypto-primes is one, and which, is outside the model."
  },
  {
   "property": "C96",
   "status": "proved",
   "theorems": [
    "RSA.C96_same",
    "RSA.C96_same_state",
    "RSA.C96_api",
    "RSA.C96_only_calls",
    "RSA.C96_unblinded",
    "RSA.C96_in_turn",
    "RSA.C96_independent",
    "RSA.C96_product",
    "RSA.C96_total",
    "RSA.C96_refused",
    "RSA.C96_pss_spends"
   ],
   "note": "Generators answer calls for octets and for numbers below a bound, as crypto-bigint's random_mod presents them; how a number is made from octets is outside the model. Loops that draw again have a bound on their draws, and running out of it is an outcome of its own."
  },
  {
   "property": "C97",
   "status": "proved",
   "theorems": [
    "RSA.C97_same_program",
    "RSA.C97_trace",
    "RSA.C97_public_differs",
    "RSA.C97_reads"
   ],
   "note": "Comparing two numbers is one call into the bignum crate, taken to show the sizes of its operands only; the slice comparison of the standard library is modelled as a length test and a loop that stops at the first difference."
  },
  {
   "property": "C98",
   "status": "proved",
   "theorems": [
    "RSA.C98_pkcs1v15",
    "RSA.C98_pkcs1v15_endless",
    "RSA.C98_oaep",
    "RSA.C98_private",
    "RSA.C98_private_ok",
    "RSA.C98_pss",
    "RSA.C98_untouched",
    "RSA.C98_limits"
   ],
   "note": "The probability of an outcome is that of C96: the sum of the weights of the scripts of answers that lead to it and are used up. The bound on the number of draws is the model's; the code has none."
  },
  {
   "property": "C99",
   "status": "proved",
   "theorems": [
    "RSA.C99_pkcs1v15_message",
    "RSA.C99_pkcs1v15",
    "RSA.C99_oaep_message",
    "RSA.C99_oaep",
    "RSA.C99_oaep_typed",
    "RSA.C99_few",
    "RSA.C99_pkcs1v15_signatures",
    "RSA.C99_pss_signatures",
    "RSA.C99_pss_none",
    "RSA.C99_pss_typed"
   ],
   "note": "PKCS#1 v1.5 decryption does not ask for a length, so the count there is of the strings as long as the modulus. The scheme object of PSS also accepts strings at or above the modulus (C20); the count is of those below."
  }
 ]
}
