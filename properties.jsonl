{"id": "C01", "title": "Raw RSA private operation inverts the public one", "statement": "For every well-formed private key (modulus the product of at least two distinct primes, d*e = 1 mod every prime-1) and every message representative m < n, the checked private-key operation applied to the public-key operation of m returns Ok(m).", "quantifier": "all well-formed keys with any number of primes, all m < n including those sharing a factor with n, CRT values present or absent, blinding on or off, every RNG behaviour that does not fail", "why_tests_cant": "tests exercise a handful of keys and coprime messages; the claim is number-theoretic over an unbounded domain", "anchors": ["src/algorithms/rsa.rs:rsa_encrypt", "src/algorithms/rsa.rs:rsa_decrypt", "src/algorithms/rsa.rs:rsa_decrypt_and_check"]}
{"id": "C02", "title": "CRT acceleration is unobservable", "statement": "For every well-formed key, precompute() and clear_precomputed(), in any order and any number of times, change neither equality of the key nor the result of any private-key operation.", "quantifier": "all well-formed keys, all ciphertext representatives, all histories of precompute/clear_precomputed", "why_tests_cant": "a history-quantified equivalence between two algorithms (CRT recombination vs plain exponentiation)", "anchors": ["src/key.rs:precompute", "src/key.rs:clear_precomputed", "src/algorithms/rsa.rs:rsa_decrypt"]}
{"id": "C03", "title": "Blinding is unobservable", "statement": "For every well-formed key and ciphertext representative c < n, if the private-key operation is run with a random number generator and terminates without an RNG failure, it returns exactly what the unblinded operation returns.", "quantifier": "all well-formed keys, all c < n, every sequence of RNG outputs (including zeros and non-invertible values)", "why_tests_cant": "the set of RNG streams is infinite; bad blinding factors have negligible probability in tests", "anchors": ["src/algorithms/rsa.rs:blind", "src/algorithms/rsa.rs:unblind", "src/algorithms/rsa.rs:rsa_decrypt"]}
{"id": "C04", "title": "A private-key result is never released unless it re-encrypts to the input", "statement": "For every private key object whatsoever, even one whose d, primes or CRT values are corrupted, if the checked private-key operation returns Ok(m) then c < n and m^e mod n = c; with blinding also m < n.", "quantifier": "all key objects (no consistency assumption), all c, blinded or not, every RNG behaviour; throughout, as far as they occur: public keys as constructors make them (the cached Montgomery parameters are those of the modulus), hash functions with non-empty output, moduli stored in fewer than 2^32 bits (their Rust type), hash length + salt length + 2 below 2^64", "why_tests_cant": "fault attacks use keys the constructors never produce; tests cannot enumerate corrupted states", "anchors": ["src/algorithms/rsa.rs:rsa_decrypt_and_check"]}
{"id": "C05", "title": "Out-of-range ciphertext representatives are refused", "statement": "Every private-key operation on a ciphertext whose integer value is >= n returns the Decryption error, without consulting the random number generator.", "quantifier": "all keys, all c >= n, blinded or not", "why_tests_cant": "boundary at n for every n", "anchors": ["src/algorithms/rsa.rs:rsa_decrypt"]}
{"id": "C06", "title": "PKCS#1 v1.5 encryption round trip", "statement": "Whatever the RNG does, if encrypting msg with a key's public half succeeds, then decrypting the ciphertext with the private key (blinded or not) returns exactly msg.", "quantifier": "all well-formed keys of any size, all messages including empty and maximal length, all RNG streams", "why_tests_cant": "message lengths, zero bytes in messages and RNG streams form an unbounded product space", "anchors": ["src/pkcs1v15.rs:encrypt", "src/pkcs1v15.rs:decrypt", "src/algorithms/pkcs1v15.rs:pkcs1v15_encrypt_pad", "src/algorithms/pkcs1v15.rs:decrypt_inner"]}
{"id": "C07", "title": "PKCS#1 v1.5 encryption: message limit, ciphertext shape, padding bytes", "statement": "Encryption fails with MessageTooLong exactly when |msg| > k-11; otherwise, unless the RNG fails, the ciphertext has exactly k bytes, represents an integer < n and is RSA of 00 02 PS 00 msg with |PS| = k-3-|msg| >= 8 and no zero byte in PS.", "quantifier": "all valid public keys, all messages, all RNG streams (including ones that return zero bytes)", "why_tests_cant": "the retry loop on zero bytes is taken with probability ~1/256 per byte and never by fixed vectors on purpose", "anchors": ["src/algorithms/pkcs1v15.rs:non_zero_random_bytes", "src/algorithms/pkcs1v15.rs:pkcs1v15_encrypt_pad", "src/pkcs1v15.rs:encrypt"]}
{"id": "C08", "title": "PKCS#1 v1.5 decryption accepts exactly the valid encodings, with one error for every padding fault", "statement": "Decryption returns Ok(m) if and only if the recovered block is 00 02 PS 00 m with PS at least 8 non-zero bytes; every other recovered block yields the same Decryption error, so the error does not tell which check failed.", "quantifier": "all blocks of all lengths", "why_tests_cant": "256^k blocks; the constant-time index arithmetic on u8/u32/i32 needs a proof", "anchors": ["src/algorithms/pkcs1v15.rs:decrypt_inner", "src/algorithms/pkcs1v15.rs:pkcs1v15_encrypt_unpad"]}
{"id": "C09", "title": "PKCS#1 v1.5 signature round trip", "statement": "For every well-formed key whose modulus is stored without spare limbs, every digest prefix and digest that fits, signing succeeds and the signature verifies under the matching public key, with or without blinding, and the signature does not depend on blinding.", "quantifier": "all such keys, prefixes, digests, RNG streams; throughout, as far as they occur: moduli stored in fewer than 2^32 bits (their Rust type)", "why_tests_cant": "unbounded inputs", "anchors": ["src/pkcs1v15.rs:sign", "src/pkcs1v15.rs:verify", "src/algorithms/pkcs1v15.rs:pkcs1v15_sign_pad", "src/algorithms/pkcs1v15.rs:pkcs1v15_sign_unpad"]}
{"id": "C10", "title": "PKCS#1 v1.5 verification accepts only the unique full encoding (no Bleichenbacher'06 slack)", "statement": "Verification succeeds only if s < n and s^e mod n, written on k bytes, is exactly 00 01 FF..FF 00 prefix digest with no missing or trailing bytes; conversely that block is accepted when the signature has the modulus' width.", "quantifier": "all public keys, prefixes, digests, signature byte strings; throughout, as far as they occur: public keys as constructors make them (the cached Montgomery parameters are those of the modulus)", "why_tests_cant": "forgery inputs are adversarial, not sampled", "anchors": ["src/pkcs1v15.rs:verify", "src/algorithms/pkcs1v15.rs:pkcs1v15_sign_unpad"]}
{"id": "C11", "title": "A PKCS#1 v1.5 signature value is unique", "statement": "For every well-formed key, prefix and digest, any two accepted signatures represent the same integer.", "quantifier": "all well-formed keys, digests, pairs of byte strings", "why_tests_cant": "needs injectivity of RSA on [0,n) for every key", "anchors": ["src/pkcs1v15.rs:verify"]}
{"id": "C12", "title": "Signatures of the wrong length are rejected", "statement": "Verification fails for every signature string whose length differs from the modulus length k (RFC 8017 8.1.2 and 8.2.2 step 1).", "quantifier": "all public keys, all strings of length other than k; throughout, as far as they occur: public keys as constructors make them (the cached Montgomery parameters are those of the modulus)", "why_tests_cant": "needs every length and every content", "anchors": ["src/pkcs1v15.rs:verify", "src/pss.rs:verify", "src/pss.rs:verify_digest"]}
{"id": "C13", "title": "The PKCS#1 v1.5 digest prefix is the DER DigestInfo header", "statement": "For every hash OID and digest length for which the encoding is short-form, prefix followed by digest is exactly the DER encoding of SEQUENCE{SEQUENCE{OID, NULL}, OCTET STRING digest}; beyond that range the function cannot produce valid DER.", "quantifier": "all OID encodings and digest lengths", "why_tests_cant": "only a few OIDs are tested; arithmetic is on u8", "anchors": ["src/algorithms/pkcs1v15.rs:pkcs1v15_generate_prefix"]}
{"id": "C14", "title": "OAEP round trip", "statement": "Whatever the RNG returns, if OAEP encryption of msg succeeds then decryption with the same hash, MGF hash and label returns exactly msg, blinded or not.", "quantifier": "all well-formed keys, hash functions (possibly different for label and MGF), labels, messages, seeds; throughout, as far as they occur: hash functions with non-empty output", "why_tests_cant": "unbounded", "anchors": ["src/oaep.rs:encrypt", "src/oaep.rs:decrypt", "src/algorithms/oaep.rs:encrypt_internal", "src/algorithms/oaep.rs:decrypt_inner"]}
{"id": "C15", "title": "OAEP decryption accepts exactly the RFC 8017 encodings, with one error for every padding fault", "statement": "Decoding a block succeeds with m if and only if RFC 8017 EME-OAEP decoding (leading zero byte, label hash, zero padding, 01 separator) yields m; every other block yields the same Decryption error (no Manger oracle in the returned value).", "quantifier": "all blocks, hashes, labels; throughout, as far as they occur: hash functions with non-empty output, moduli stored in fewer than 2^32 bits (their Rust type)", "why_tests_cant": "256^k blocks; constant-time flags", "anchors": ["src/algorithms/oaep.rs:decrypt_inner", "src/algorithms/oaep.rs:oaep_decrypt"]}
{"id": "C16", "title": "OAEP binds the label", "statement": "A ciphertext produced with label L is rejected with the Decryption error when decrypted with any label L' whose hash differs from the hash of L.", "quantifier": "all keys, labels with different hashes, messages, seeds; throughout, as far as they occur: hash functions with non-empty output", "why_tests_cant": "unbounded", "anchors": ["src/algorithms/oaep.rs:decrypt_inner"]}
{"id": "C17", "title": "OAEP encryption: message limit and ciphertext shape", "statement": "OAEP encryption fails with MessageTooLong exactly when |msg| + 2 hLen + 2 > k; otherwise, unless the RNG fails or the label is over-long, the ciphertext is RSA of the RFC 8017 EME-OAEP encoding of msg under the seed drawn, has exactly k bytes and represents an integer < n.", "quantifier": "all keys, hashes, labels, messages, RNG streams; throughout, as far as they occur: public keys as constructors make them (the cached Montgomery parameters are those of the modulus), hash functions with non-empty output", "why_tests_cant": "unbounded", "anchors": ["src/algorithms/oaep.rs:encrypt_internal", "src/oaep.rs:encrypt"]}
{"id": "C18", "title": "PSS signature round trip", "statement": "For every well-formed key, hash, salt length that fits and every RNG stream, PSS signing succeeds and the signature verifies with the same salt length; blinded and unblinded signers agree for equal salts.", "quantifier": "all keys of every bit length (including 8j+1), hashes, salt lengths, salts; throughout, as far as they occur: hash functions with non-empty output, moduli stored in fewer than 2^32 bits (their Rust type)", "why_tests_cant": "edge bit lengths and all salts", "anchors": ["src/pss.rs:sign_pss_with_salt", "src/pss.rs:verify", "src/algorithms/pss.rs:emsa_pss_encode", "src/algorithms/pss.rs:emsa_pss_verify"]}
{"id": "C19", "title": "PSS decoding accepts exactly the RFC 8017 encodings", "statement": "The PSS check of a block against a digest succeeds if and only if the block (without the surplus leading byte present when the modulus has 8j+1 bits) is the EMSA-PSS encoding of that digest for some salt of exactly the requested length.", "quantifier": "all blocks, hashes, salt lengths, key bit lengths; throughout, as far as they occur: public keys as constructors make them (the cached Montgomery parameters are those of the modulus), hash functions with non-empty output, moduli stored in fewer than 2^32 bits (their Rust type), hash length + salt length + 2 below 2^64 (C87 says what happens otherwise)", "why_tests_cant": "256^k blocks", "anchors": ["src/algorithms/pss.rs:emsa_pss_verify", "src/algorithms/pss.rs:emsa_pss_verify_pre", "src/algorithms/pss.rs:emsa_pss_verify_salt"]}
{"id": "C20", "title": "PSS verification only accepts signature representatives below n", "statement": "Every accepted PSS signature represents an integer s < n.", "quantifier": "all public keys, digests, signature strings, both verification entry points; throughout, as far as they occur: public keys as constructors make them (the cached Montgomery parameters are those of the modulus), hash functions with non-empty output, moduli stored in fewer than 2^32 bits (their Rust type), hash length + salt length + 2 below 2^64 (C87 says what happens otherwise)", "why_tests_cant": "values between n and 256^k are never sampled", "anchors": ["src/pss.rs:verify", "src/pss.rs:verify_digest"]}
{"id": "C21", "title": "PSS verification rejects recovered values that do not fit emLen octets", "statement": "When the modulus has 8j+1 bits and s^e mod n >= 256^emLen, verification fails (RFC 8017 8.1.2 step 2c).", "quantifier": "all public keys with 8j+1 bits, all signatures; throughout, as far as they occur: public keys as constructors make them (the cached Montgomery parameters are those of the modulus), hash functions with non-empty output, moduli stored in fewer than 2^32 bits (their Rust type), hash length + salt length + 2 below 2^64 (C87 says what happens otherwise)", "why_tests_cant": "only reachable at special modulus lengths", "anchors": ["src/pss.rs:verify", "src/algorithms/pss.rs:emsa_pss_verify"]}
{"id": "C22", "title": "PSS signing refuses to run without randomness, and never signs with a salt of another length", "statement": "Signing with the Pss scheme without an RNG returns InvalidPaddingScheme; with an RNG the salt used is exactly the next salt_len bytes it returned, and an RNG failure yields an error and no signature.", "quantifier": "all keys, salt lengths, RNG behaviours; throughout, as far as they occur: hash functions with non-empty output, moduli stored in fewer than 2^32 bits (their Rust type), hash length + salt length + 2 below 2^64", "why_tests_cant": "RNG behaviours are unbounded", "anchors": ["src/pss.rs:Pss", "src/pss.rs:sign"]}
{"id": "C23", "title": "MGF1 masking is RFC 8017 MGF1 and is an involution", "statement": "XOR-masking a buffer of any length up to 2^32 with any seed and hash equals XOR with RFC 8017 MGF1(seed, length); masking twice restores the buffer; every block uses the 4-byte big-endian counter.", "quantifier": "all hashes, seeds, buffers; throughout, as far as they occur: hash functions with non-empty output", "why_tests_cant": "all lengths incl. multi-block and carry between counter bytes", "anchors": ["src/algorithms/mgf.rs:mgf1_xor", "src/algorithms/mgf.rs:inc_counter"]}
{"id": "C24", "title": "Boxed-digest and generic-digest code paths agree", "statement": "Encoding, decoding and masking through the trait-object digest API and through the generic digest API give identical results for the same hash function (they differ only in the error returned for an over-long OAEP label).", "quantifier": "all hash functions, inputs", "why_tests_cant": "duplicated code must agree on every input", "anchors": ["src/algorithms/mgf.rs:mgf1_xor_digest", "src/algorithms/pss.rs:emsa_pss_encode_digest", "src/algorithms/pss.rs:emsa_pss_verify_digest", "src/algorithms/oaep.rs:oaep_encrypt_digest", "src/algorithms/oaep.rs:oaep_decrypt_digest"]}
{"id": "C25", "title": "Integer to octet-string conversion is exact", "statement": "Converting an integer to a padded big-endian string of length L succeeds if and only if the value is below 256^L, always returns exactly L bytes, and reading those bytes back gives the value, whatever the internal width of the integer.", "quantifier": "all integers, internal widths, lengths", "why_tests_cant": "unbounded", "anchors": ["src/algorithms/pad.rs:left_pad", "src/algorithms/pad.rs:uint_to_be_pad", "src/algorithms/pad.rs:uint_to_zeroizing_be_pad"]}
{"id": "C26", "title": "Public key acceptance is exactly the documented predicate", "statement": "RsaPublicKey::new accepts (n, e) if and only if the modulus storage is at most 4096 bits, e < n, n and e odd, 2 <= e <= 2^33-1; each rejection returns the documented error in the documented precedence.", "quantifier": "all (n, e) and all size limits; throughout, as far as they occur: public keys as constructors make them (the cached Montgomery parameters are those of the modulus)", "why_tests_cant": "boundaries over an infinite domain", "anchors": ["src/key.rs:check_public_with_max_size", "src/key.rs:RsaPublicKey"]}
{"id": "C27", "title": "A validated private key is consistent", "statement": "If validate() accepts a key then the public part is acceptable, there are at least two primes, their product is n and d*e = 1 modulo every prime-1; and every key with those properties (all primes > 1) is accepted.", "quantifier": "all key objects", "why_tests_cant": "decision procedure over an infinite domain", "anchors": ["src/key.rs:validate"]}
{"id": "C28", "title": "Key construction and validation never panic on caller-supplied or decoded components", "statement": "from_components, validate and private-key decoding return Ok or Err for every input, never panic.", "quantifier": "all n, e, d, primes lists (with any stored precision)", "why_tests_cant": "crash inputs are adversarial", "anchors": ["src/key.rs:validate", "src/key.rs:from_components", "src/encoding.rs:try_from"]}
{"id": "C29", "title": "Keys built from primes are correct keys", "statement": "from_p_q and from_primes reject equal primes, and whenever they return a key for distinct odd primes the key is well-formed: n is the product, d is the inverse of e modulo the Carmichael (resp. Euler) totient reduced below it, and all cryptographic round trips hold; with e coprime to the totient and a size within limits they do return a key.", "quantifier": "all distinct primes and exponents", "why_tests_cant": "number theory over all primes", "anchors": ["src/key.rs:from_p_q", "src/key.rs:from_primes", "src/algorithms/rsa.rs:compute_private_exponent_carmicheal", "src/algorithms/rsa.rs:compute_private_exponent_euler_totient", "src/algorithms/rsa.rs:compute_modulus"]}
{"id": "C30", "title": "Prime recovery is sound and complete", "statement": "Recovering primes from (n, e, d) never returns a wrong pair: any returned p, q satisfy p*q = n, p >= q; and for n = p*q with d*e = 1 mod lcm(p-1, q-1), e > 65536 and (de-1)*gcd(n-1, de-1)/((p-1)(q-1)) * (p+q-1) <= n (the range in which the NIST SP 800-56B C.2 method works) it returns exactly the two primes.", "quantifier": "all n, e, d", "why_tests_cant": "number theory; tests use a few keys", "anchors": ["src/algorithms/rsa.rs:recover_primes"]}
{"id": "C31", "title": "Generated keys are well-formed and have the requested size", "statement": "Whenever key generation returns, the key has exactly the requested modulus bit length, the requested number of pairwise distinct primes, the requested exponent and is well-formed, whatever candidate primes the generator produced.", "quantifier": "all bit sizes, prime counts, exponents, RNG/prime-candidate streams", "why_tests_cant": "probabilistic loop with retries", "anchors": ["src/algorithms/generate.rs:generate_multi_prime_key_with_exp"]}
{"id": "C32", "title": "Key generation gives up or terminates for bad exponents", "statement": "Key generation with an exponent that can never be inverted (even exponent) returns an error instead of running forever.", "quantifier": "all even exponents, all RNG/prime streams", "why_tests_cant": "non-termination cannot be observed by a test", "anchors": ["src/algorithms/generate.rs:generate_multi_prime_key_with_exp", "src/key.rs:new_with_exp"]}
{"id": "C33", "title": "Key equality and hashing are coherent", "statement": "Equality of keys is an equivalence relation that ignores cached CRT values, and equal keys hash equally.", "quantifier": "all pairs of keys, any stored precision", "why_tests_cant": "pairs of objects with different internal representation", "anchors": ["src/key.rs:PartialEq", "src/key.rs:Hash"]}
{"id": "C34", "title": "Debug output of a private key reveals nothing about secret components", "statement": "The Debug text of a private key is a function of the public key and of whether CRT values are cached only.", "quantifier": "all pairs of keys with the same public part", "why_tests_cant": "2-safety (noninterference)", "anchors": ["src/key.rs:Debug"]}
{"id": "C35", "title": "Dropping a private key erases every secret", "statement": "After a private key is dropped, no buffer it owned still holds d, a prime, or a CRT value.", "quantifier": "all keys with and without cached CRT values", "why_tests_cant": "memory contents after drop are not observable in safe tests", "anchors": ["src/key.rs:Drop", "src/key.rs:PrecomputedValues"]}
{"id": "C36", "title": "Private key encoding round trip", "statement": "For every valid two-prime private key, decoding its PKCS#8/PKCS#1 encoding returns an equal key; keys with more than two primes are refused at encoding time.", "quantifier": "all validated keys", "why_tests_cant": "unbounded; sign bytes, leading zeros, lengths", "anchors": ["src/encoding.rs:to_pkcs8_der", "src/encoding.rs:try_from"]}
{"id": "C37", "title": "Public key encoding round trip", "statement": "Decoding the encoding of any valid public key returns an equal key, and encoding is injective.", "quantifier": "all valid public keys", "why_tests_cant": "unbounded", "anchors": ["src/encoding.rs:to_public_key_der", "src/encoding.rs:try_from"]}
{"id": "C38", "title": "CRT values stored in an encoded private key are never trusted", "statement": "The exponent1, exponent2 and coefficient fields of an encoded private key have no influence on the decoded key or on anything computed with it.", "quantifier": "all encoded keys differing in those fields", "why_tests_cant": "2-safety over attacker-controlled input", "anchors": ["src/encoding.rs:try_from"]}
{"id": "C39", "title": "Only the RSA algorithm identifiers with the right parameters are accepted", "statement": "Key decoding accepts rsaEncryption only with NULL parameters and id-RSASSA-PSS only with absent parameters and rejects every other identifier; PKCS#1 v1.5 signing keys accept rsaEncryption only.", "quantifier": "all algorithm identifiers and parameter values", "why_tests_cant": "all OIDs", "anchors": ["src/encoding.rs:verify_algorithm_id", "src/pkcs1v15/verifying_key.rs:TryFrom"]}
{"id": "C40", "title": "Signature encoding round trip", "statement": "Parsing a signature string and encoding it again returns the same string, and encoding then parsing returns an equal signature.", "quantifier": "all strings and all signatures", "why_tests_cant": "all lengths", "anchors": ["src/pkcs1v15/signature.rs:TryFrom", "src/pss/signature.rs:TryFrom"]}
{"id": "C41", "title": "The PSS algorithm identifier states the salt length actually used", "statement": "The salt length in the algorithm identifier published by a PSS signing key equals the salt length it signs with.", "quantifier": "all salt lengths; throughout, as far as they occur: public keys as constructors make them (the cached Montgomery parameters are those of the modulus), hash functions with non-empty output, moduli stored in fewer than 2^32 bits (their Rust type), hash length + salt length + 2 below 2^64", "why_tests_cant": "all usize values", "anchors": ["src/pss.rs:get_pss_signature_algo_id", "src/pss/signing_key.rs:signature_algorithm_identifier"]}
{"id": "C42", "title": "Serialisation of signing and verifying keys preserves the object", "statement": "Serialising and deserialising a PSS or PKCS#1 v1.5 signing/verifying key or an OAEP key returns an equal key that produces/accepts the same signatures or ciphertexts.", "quantifier": "all wrapper keys, salt lengths, labels, prefixes; throughout, as far as they occur: public keys as constructors make them (the cached Montgomery parameters are those of the modulus)", "why_tests_cant": "configuration state space", "anchors": ["src/pss/signing_key.rs:Deserialize", "src/pkcs1v15/signing_key.rs:Deserialize", "src/oaep/decrypting_key.rs"]}
{"id": "C43", "title": "Verification never panics", "statement": "Every signature verification entry point returns Ok or Err for every signature, digest and salt length on every constructible public key.", "quantifier": "all public keys, byte strings below 2^29 bytes, salt lengths; throughout, as far as they occur: public keys as constructors make them (the cached Montgomery parameters are those of the modulus), hash functions with non-empty output, moduli stored in fewer than 2^32 bits (their Rust type)", "why_tests_cant": "crash inputs are adversarial", "anchors": ["src/pkcs1v15.rs:verify", "src/pss.rs:verify", "src/pss.rs:verify_digest"]}
{"id": "C44", "title": "Decryption never panics", "statement": "Every decryption entry point returns Ok or Err for every ciphertext string and label on every well-formed key.", "quantifier": "all well-formed keys, all ciphertext strings; throughout, as far as they occur: hash functions with non-empty output, moduli stored in fewer than 2^32 bits (their Rust type)", "why_tests_cant": "crash inputs are adversarial", "anchors": ["src/pkcs1v15.rs:decrypt", "src/oaep.rs:decrypt", "src/oaep.rs:decrypt_digest"]}
{"id": "C45", "title": "RNG failures surface as errors", "statement": "If the random number generator fails at any point of encryption, blinded decryption or randomized signing, the operation returns an error and no ciphertext, plaintext or signature.", "quantifier": "all operations, all failure points; throughout, as far as they occur: public keys as constructors make them (the cached Montgomery parameters are those of the modulus), hash functions with non-empty output, moduli stored in fewer than 2^32 bits (their Rust type), hash length + salt length + 2 below 2^64", "why_tests_cant": "failure can occur at any call", "anchors": ["src/algorithms/rsa.rs:blind", "src/algorithms/pkcs1v15.rs:non_zero_random_bytes", "src/oaep.rs:encrypt", "src/pss.rs:sign"]}
{"id": "C46", "title": "Typed keys agree with padding-scheme objects", "statement": "SigningKey/VerifyingKey and EncryptingKey/DecryptingKey produce and accept exactly the same integers as RsaPrivateKey/RsaPublicKey used with the corresponding padding scheme object.", "quantifier": "all keys, messages, digests, labels, RNG streams; throughout, as far as they occur: public keys as constructors make them (the cached Montgomery parameters are those of the modulus), moduli stored in fewer than 2^32 bits (their Rust type)", "why_tests_cant": "two APIs, all inputs", "anchors": ["src/pkcs1v15/signing_key.rs", "src/pkcs1v15/verifying_key.rs", "src/pss/signing_key.rs", "src/pss/verifying_key.rs", "src/oaep/encrypting_key.rs", "src/oaep/decrypting_key.rs"]}
{"id": "C47", "title": "The public operation computes m^e mod n for every message representative", "statement": "The raw public-key operation returns m^e mod n for every integer m.", "quantifier": "all public keys, all m, any stored precision; throughout, as far as they occur: public keys as constructors make them (the cached Montgomery parameters are those of the modulus)", "why_tests_cant": "wide m are never tested", "anchors": ["src/algorithms/rsa.rs:rsa_encrypt", "src/algorithms/rsa.rs:reduce_vartime"]}
{"id": "C48", "title": "Private-key results are reduced modulo n", "statement": "Every result m of the checked private-key operation is below n, with and without blinding, whatever the state of the key object.", "quantifier": "all key objects, all c, blinded or not; throughout, as far as they occur: public keys as constructors make them (the cached Montgomery parameters are those of the modulus)", "why_tests_cant": "needs corrupted CRT values that constructors never produce", "anchors": ["src/algorithms/rsa.rs:rsa_decrypt", "src/algorithms/rsa.rs:rsa_decrypt_and_check"]}
{"id": "C49", "title": "Genuine PKCS#1 v1.5 signatures verify however the modulus is stored", "statement": "For every well-formed key, a signature the signing functions return verifies under the public half, regardless of how many limbs the modulus is stored in.", "quantifier": "all well-formed keys (any stored precision of n), all scheme objects, digests, generators; throughout, as far as they occur: moduli stored in fewer than 2^32 bits (their Rust type)", "why_tests_cant": "test keys have sizes that are multiples of 64 bits, where no spare limb exists", "anchors": ["src/pkcs1v15.rs:verify", "src/pkcs1v15.rs:sign", "src/key.rs:from_components"]}
{"id": "C50", "title": "Genuine typed PSS signatures verify however the modulus is stored", "statement": "For every well-formed key, a signature that SigningKey or BlindedSigningKey returns verifies under the derived VerifyingKey, regardless of how many limbs the modulus is stored in.", "quantifier": "all well-formed keys and modulus widths, all hashes, salt lengths, messages and generators; throughout, as far as they occur: hash functions with non-empty output, moduli stored in fewer than 2^32 bits (their Rust type), hash length + salt length + 2 below 2^64", "why_tests_cant": "a test uses keys whose modulus fills its limbs; widths with spare limbs arise only for unusual sizes", "anchors": ["src/pss.rs:verify_digest", "src/pss/signature.rs:try_from", "src/pss/verifying_key.rs:verify"]}
{"id": "C51", "title": "Key construction rejects factors that are not distinct primes", "statement": "from_components never accepts a repeated or composite factor: every accepted key has pairwise distinct prime factors (so that decryption inverts encryption for every message).", "quantifier": "all component tuples", "why_tests_cant": "infinite domain of adversarial keys; the failing messages are the few sharing a factor with n", "anchors": ["src/key.rs:validate", "src/key.rs:from_components"]}
{"id": "C52", "title": "A key can be built from n, e, d alone", "statement": "from_components called without primes, for a genuine two-prime key in the range of C30, returns the well-formed key with the recovered primes.", "quantifier": "all genuine keys (n, e, d)", "why_tests_cant": "internal storage widths differ from the numbers; the repo's tests call recover_primes but never from_components without primes", "anchors": ["src/key.rs:from_components", "src/algorithms/rsa.rs:recover_primes", "src/key.rs:validate"]}
{"id": "C53", "title": "Building a key from primes never panics", "statement": "from_p_q and from_primes return Ok or Err for every pair/list of factors and every exponent.", "quantifier": "all factors, exponents and stored precisions", "why_tests_cant": "crash inputs are adversarial", "anchors": ["src/key.rs:from_p_q", "src/key.rs:from_primes", "src/algorithms/rsa.rs:compute_modulus", "src/algorithms/rsa.rs:compute_private_exponent_carmicheal"]}
{"id": "C54", "title": "Key generation uses the first usable pair of primes", "statement": "For two primes whose search sets the two top bits, the product always has the requested bit length, so the generation loop retries only for equal primes or an exponent that has no inverse; for every size from 12 to 4096 bits and acceptable exponent the key returned is built from exactly the first usable pair. A size above 4096 bits never yields a key.", "quantifier": "all bit sizes, exponents, prime-search streams and numbers of retries", "why_tests_cant": "the retry path depends on rare coincidences of the random stream", "anchors": ["src/algorithms/generate.rs:generate_multi_prime_key_with_exp", "src/key.rs:new_with_exp"]}
{"id": "C55", "title": "The private key encoding is exactly the RFC 8017 / RFC 5208 structure", "statement": "For a validated two-prime key with coprime primes, to_pkcs8_der outputs byte for byte the DER PrivateKeyInfo for rsaEncryption around the version 0 RSAPrivateKey with n, e, d, p, q, d mod (p-1), d mod (q-1) and q^-1 mod p; keys with more than two primes or non-invertible q are refused.", "quantifier": "all validated two-prime keys, all keys with more primes", "why_tests_cant": "A wrong leading zero, a swapped field or a wrong CRT value shows only for particular sizes of the numbers; the theorem covers every length of every field.", "anchors": ["src/encoding.rs:to_pkcs8_der", "src/key.rs:crt_coefficient"]}
{"id": "C56", "title": "Public key decoding accepts strict DER only", "statement": "from_public_key_der returns on every byte string, accepts exactly the canonical SubjectPublicKeyInfo encodings of acceptable keys (no trailing bytes, no non-minimal lengths or integers), and re-encoding a decoded key and decoding again gives the identical key.", "quantifier": "all byte strings; throughout, as far as they occur: public keys as constructors make them (the cached Montgomery parameters are those of the modulus)", "why_tests_cant": "The set of malformed encodings is infinite; malleability of key encodings can only be excluded by a proof over all byte strings.", "anchors": ["src/encoding.rs:try_from", "src/encoding.rs:to_public_key_der"]}
{"id": "C57", "title": "Every decoded private key is validated and holds the encoded numbers", "statement": "A private key accepted by from_pkcs8_der passes validate, has exactly two primes, holds exactly the n, e, d, p, q of the RSAPrivateKey structure inside, and (if its primes are coprime) re-encodes to something that decodes to the identical key, cached values included.", "quantifier": "all byte strings", "why_tests_cant": "Tests decode a handful of well-formed keys; the claim is about everything the decoder could accept.", "anchors": ["src/encoding.rs:try_from", "src/key.rs:from_components"]}
{"id": "C58", "title": "Decoding a private key never panics", "statement": "from_pkcs8_der returns Ok or Err for every byte string.", "quantifier": "all byte strings", "why_tests_cant": "Panicking inputs are isolated points (a prime field equal to 1 with matching modulus) that random or fuzz tests are unlikely to hit.", "anchors": ["src/encoding.rs:try_from", "src/key.rs:validate"]}
{"id": "C59", "title": "Equal keys are interchangeable", "statement": "Two well-formed private keys that compare equal (whatever their limb counts and whether or not they carry CRT values) produce the same signatures and the same decryption results with every scheme; two equal public keys produce the same ciphertexts, and the same verification results when their moduli have the same limb count. Typed keys compare equal exactly if the numbers of the wrapped keys are equal and so is the prefix, salt length or label they carry.", "quantifier": "all pairs of equal well-formed keys, all inputs, all generator streams on which blinding succeeds; throughout, as far as they occur: hash functions with non-empty output, moduli stored in fewer than 2^32 bits (their Rust type), hash length + salt length + 2 below 2^64", "why_tests_cant": "pairs of representations of the same key; tests compare a key with itself", "anchors": ["src/key.rs:eq", "src/algorithms/rsa.rs:rsa_decrypt", "src/pkcs1v15.rs:sign", "src/oaep.rs:decrypt", "src/oaep/encrypting_key.rs:eq", "src/oaep/decrypting_key.rs:eq", "src/pss/signing_key.rs:eq"]}
{"id": "C60", "title": "Encoded signatures have the modulus length", "statement": "The byte encoding of every signature object returned by the typed PKCS#1 v1.5 and PSS signers has exactly the octet length of the modulus, as RFC 8017 8.1.1/8.2.1 require.", "quantifier": "all keys, messages, salts, generators", "why_tests_cant": "modulus sizes that are not a multiple of 64 bits are not tested", "anchors": ["src/pkcs1v15/signature.rs:From", "src/pss/signature.rs:From", "src/pkcs1v15/signing_key.rs:try_sign"]}
{"id": "C61", "title": "The placeholder generator is never consulted", "statement": "RsaPrivateKey::sign and ::decrypt and the deterministic typed operations pass None of type DummyRng, whose methods all abort; no execution of them ever reaches a generator call.", "quantifier": "all keys (well-formed or not), inputs, schemes", "why_tests_cant": "absence of a call on every path", "anchors": ["src/dummy_rng.rs:DummyRng", "src/key.rs:sign", "src/key.rs:decrypt"]}
{"id": "C62", "title": "Signing and encryption never panic", "statement": "Every signing entry point (including parsing the result into a typed signature) and every encryption entry point returns Ok or Err for every message, digest, prefix, label and salt length that does not overflow usize, on every key object a constructor can return; only a generator whose draws never settle can keep it from returning.", "quantifier": "all constructible keys, all messages, digests, labels, generators; throughout, as far as they occur: hash functions with non-empty output, moduli stored in fewer than 2^32 bits (their Rust type)", "why_tests_cant": "crash inputs are adversarial", "anchors": ["src/pkcs1v15.rs:sign", "src/pkcs1v15.rs:encrypt", "src/oaep.rs:encrypt", "src/oaep.rs:encrypt_digest", "src/pss.rs:sign", "src/pss.rs:sign_digest"]}
{"id": "C63", "title": "The serde layer is faithful", "statement": "Serialising a key or signature with serde and deserialising the result gives an equal object, for human-readable formats (lower-case hex of the DER or signature bytes) and binary formats (the bytes); deserialisation accepts exactly the documents that hold bytes the DER or signature decoder accepts, in either letter case, and never panics at the byte layer.", "quantifier": "all byte strings, documents, keys, both format kinds; throughout, as far as they occur: public keys as constructors make them (the cached Montgomery parameters are those of the modulus)", "why_tests_cant": "tests serialise one value to one format", "anchors": ["src/key.rs:serialize", "src/key.rs:deserialize", "src/pkcs1v15/signature.rs:serialize", "src/pss/signature.rs:serialize", "src/pkcs1v15/signing_key.rs:serialize", "src/pss/signing_key.rs:serialize", "src/pss/blinded_signing_key.rs:serialize", "src/pss/verifying_key.rs:serialize", "src/pkcs1v15/verifying_key.rs:serialize"]}
{"id": "C64", "title": "Signature text and bit string forms", "statement": "LowerHex, UpperHex and Display of both signature types spell exactly the bytes of to_bytes in the stated letter case, the two types agree, equal text means equal bytes, and to_bitstring wraps the same bytes with no unused bits.", "quantifier": "all signature values", "why_tests_cant": "a literal checks one value, leading zeros and limb order are easy to miss", "anchors": ["src/pkcs1v15/signature.rs:fmt", "src/pss/signature.rs:fmt", "src/pkcs1v15/signature.rs:to_bitstring", "src/pss/signature.rs:to_bitstring"]}
{"id": "C65", "title": "Algorithm identifiers are the RFC encodings", "statement": "The DER algorithm identifier published by PSS keys is the RFC 4055 structure (defaults omitted, hash and MGF1 over the same hash, NULL parameters) and names the key's salt length; the PKCS#1 v1.5 ones are the RFC 8017 object identifiers with NULL parameters and determine the hash; keys publish rsaEncryption.", "quantifier": "all hash object identifiers, salt lengths, keys", "why_tests_cant": "tests check SHA-256 with default salt only", "anchors": ["src/pss.rs:get_pss_signature_algo_id", "src/pss/signing_key.rs:signature_algorithm_identifier", "src/pss/blinded_signing_key.rs:signature_algorithm_identifier", "src/pkcs1v15.rs:RsaSignatureAssociatedOid", "src/pkcs1v15/signing_key.rs:SIGNATURE_ALGORITHM_IDENTIFIER", "src/pkcs1v15/verifying_key.rs:SIGNATURE_ALGORITHM_IDENTIFIER"]}
{"id": "C66", "title": "A freshly generated key works", "statement": "For every key returned by RsaPrivateKey::new_with_exp: what its public key encrypts (PKCS#1 v1.5 or OAEP) it decrypts, what it signs its own public key verifies, and its PKCS#8 encoding decodes to an equal key.", "quantifier": "all prime searches returning primes with the two top bits set, bit sizes, exponents, messages, generators; throughout, as far as they occur: hash functions with non-empty output, hash length + salt length + 2 below 2^64", "why_tests_cant": "tests generate keys of a few round sizes and exercise one operation on each", "anchors": ["src/key.rs:new_with_exp", "src/algorithms/generate.rs:generate_multi_prime_key_with_exp", "src/algorithms/rsa.rs:compute_modulus", "src/pkcs1v15.rs:verify", "src/pss.rs:verify_digest"]}
{"id": "C67", "title": "A signature binds hash function, digest and salt length", "statement": "If one signature is accepted under one public key for two prefix/digest pairs by the PKCS#1 v1.5 scheme objects then prefix ‖ digest is the same octet string for both; with the prefixes of `Pkcs1v15Sign::new` the hash identifier and digest are the same; with verifying keys the message hashes are equal. For PSS, a signature accepted for two digests and two salt lengths has one salt length, and the two digests give the same hash of 0^8 ‖ digest ‖ salt.", "quantifier": "for all public keys (moduli below 2^32 bits), hash functions, identifiers, digests, messages and signatures; throughout, as far as they occur: public keys as constructors make them (the cached Montgomery parameters are those of the modulus), hash functions with non-empty output, hash length + salt length + 2 below 2^64", "why_tests_cant": "Tests verify a few signatures against one wrong message; that no signature whatsoever is accepted for two different things needs injectivity of both encodings.", "anchors": ["src/pkcs1v15.rs:verify", "src/algorithms/pkcs1v15.rs:pkcs1v15_sign_unpad", "src/algorithms/pkcs1v15.rs:pkcs1v15_generate_prefix", "src/pss.rs:verify", "src/pss.rs:verify_digest", "src/algorithms/pss.rs:emsa_pss_verify"]}
{"id": "C68", "title": "Encryption uses its randomness injectively", "statement": "Under a well-formed key, two encryptions that give the same ciphertext have the same message; for OAEP the same seed and label hash; for PKCS#1 v1.5 the padding octets first drawn agree wherever both are non-zero. So encryptions with different seeds or different non-zero padding octets give different ciphertexts.", "quantifier": "for all well-formed keys, generators and generator states, messages, labels and hash functions; throughout, as far as they occur: hash functions with non-empty output", "why_tests_cant": "Tests encrypt a few times and decrypt; that different randomness never leads to the same ciphertext is a statement about all pairs of runs.", "anchors": ["src/pkcs1v15.rs:encrypt", "src/algorithms/pkcs1v15.rs:pkcs1v15_encrypt_pad", "src/oaep.rs:encrypt", "src/algorithms/oaep.rs:oaep_encrypt"]}
{"id": "C69", "title": "Blinding: every unit is the blinded value of exactly one draw", "statement": "One round of `blind`: a draw r that is 0 or coprime to n ends the loop, the value handed to the private operation is c·r^e mod n (with 1 for r = 0) and the returned unblinder is an inverse of r; any other draw is thrown away. For c and t coprime to n exactly one r in 1..n-1 coprime to n makes t the blinded value. The blinded value always keeps the ciphertext's gcd with n.", "quantifier": "for all coherent public keys (well-formed keys for the counting part), generators, states, ciphertexts c and targets t", "why_tests_cant": "Uniformity over all blinding factors cannot be sampled: it is a statement about all n values of r at once.", "anchors": ["src/algorithms/rsa.rs:blind", "src/algorithms/rsa.rs:unblind"]}
{"id": "C70", "title": "Decryption reveals nothing of the plaintext but success and message length", "statement": "The branches taken, the indices and ranges used and the lengths allocated, compared and hashed while decrypting (PKCS#1 v1.5 and OAEP, both OAEP implementations) depend on the plaintext only through whether decryption succeeds and, if so, through the length of the message: two ciphertexts under one key with the same outcome are handled alike.", "quantifier": "all keys passing the public-key check, all pairs of ciphertexts, all hash functions, labels and generators", "why_tests_cant": "Timing tests compare a few inputs statistically; that no other secret-dependent branch or index exists is a statement about all pairs of inputs.", "anchors": ["src/algorithms/pkcs1v15.rs:pkcs1v15_encrypt_unpad", "src/algorithms/pkcs1v15.rs:decrypt_inner", "src/algorithms/oaep.rs:oaep_decrypt", "src/algorithms/oaep.rs:oaep_decrypt_digest", "src/algorithms/oaep.rs:decrypt_inner", "src/algorithms/pad.rs:uint_to_zeroizing_be_pad", "src/algorithms/mgf.rs:mgf1_xor", "src/pkcs1v15.rs:decrypt", "src/oaep.rs:decrypt", "src/oaep.rs:decrypt_digest"]}
{"id": "C71", "title": "PKCS#1 documents are exactly the RFC 8017 structures", "statement": "Reading a PKCS#1 document gives the same result as reading the PKCS#8/SPKI document that wraps it under rsaEncryption. A byte string is accepted as a public key exactly if it is the strict DER of an acceptable (n, e), and a decoded public key encodes to the very bytes it came from. A validated two-prime key with coprime primes is written as exactly the version 0 structure of RFC 8017 A.1.2; what is accepted as a private key is the strict DER of such a structure with the key's numbers; well-formed keys with d < n survive the round trip; multi-prime documents are refused; reading returns for every byte string unless a parsed prime is 1.", "quantifier": "all byte strings, all keys", "why_tests_cant": "Tests read and write two key files; they cannot show that no other byte string is accepted or that every key survives.", "anchors": ["src/encoding.rs:try_from", "src/encoding.rs:to_pkcs8_der", "src/encoding.rs:to_public_key_der", "src/lib.rs:pkcs1"]}
{"id": "C72", "title": "Accessors, conversions, random constructors and printed forms agree with the key", "statement": "After a key is built from components, the accessors return exactly those components, and CRT values that satisfy their defining congruences, or none when the first two primes are not coprime. Random constructors of the typed signing keys hold exactly the key that RsaPrivateKey::new draws, with the documented prefix or salt length, and fail as it fails; signatures by a drawn key verify under its own verifying key for sizes that fill their limbs. Conversions back and forth return the same key. Debug output of any wrapper does not depend on secret values, and error texts identify the error.", "quantifier": "all components accepted by from_components; all generator states, bit sizes, hashes, object identifiers, salt lengths and messages; all pairs of private keys with the same public part; all pairs of errors", "why_tests_cant": "The accessors and constructors are exercised on a few keys only; that no secret reaches a printed form is a statement about all pairs of keys.", "anchors": ["src/key.rs:PrivateKeyParts", "src/key.rs:PublicKeyParts", "src/pkcs1v15/signing_key.rs:random", "src/pss/signing_key.rs:random_with_salt_len", "src/pss/blinded_signing_key.rs:random_with_salt_len", "src/errors.rs:fmt", "src/pss.rs:fmt", "src/oaep.rs:fmt"]}
{"id": "C73", "title": "The floating-point size check of key generation decides as the real formula does", "statement": "For a modulus below 64 bits, the check on the number of primes gives the same answer with every floating-point rounding of relative error at most 2^-53 (in particular IEEE 754 round to nearest even), with exact rational arithmetic, and with the real logarithm. It refuses exactly: two primes below 12 bits, three below 21, four below 28, and n >= 5 primes below 8n bits. From 64 bits on nothing is checked: asking for more primes than exist of the two lengths in use runs forever, and fewer than two bits per prime panics.", "quantifier": "all roundings with relative error at most 2^-53, all prime counts and bit sizes, all prime searches and generator states, any number of turns", "why_tests_cant": "The test loops over sizes below 32 and ignores the results; that no rounding flips the comparison, and that a request never terminates, is beyond any run.", "anchors": ["src/algorithms/generate.rs:generate_multi_prime_key_with_exp"]}
{"id": "C74", "title": "Every key-building error has one exact cause", "statement": "validate, precompute, from_components, from_p_q and from_primes return each error variant exactly when a stated condition on the numbers holds (too wide, exponent not below the modulus, even modulus, even or too small or too large exponent, zero factor, wrong product, first factor with a wrong exponent, non-invertible exponent, equal factors, too few factors), panic exactly when another stated condition holds, never loop, and otherwise succeed.", "quantifier": "all moduli, exponents, factor lists and storage widths", "why_tests_cant": "each error is tested by one or two literal keys; precedence between causes and the panicking region are not explored", "anchors": ["src/key.rs:validate", "src/key.rs:precompute", "src/key.rs:from_components", "src/key.rs:from_p_q", "src/key.rs:from_primes", "src/key.rs:check_public_with_max_size"]}
{"id": "C75", "title": "Private key decoding has an exact verdict on every input", "statement": "For every byte string, PKCS#1 and PKCS#8 private key decoding returns a key exactly if the content is the strict DER encoding of an RFC 8017 version 0 RSAPrivateKey whose numbers satisfy stated conditions (acceptable public part, d, p, q no longer than n, p*q = n modulo the word width of n, de = 1 modulo p-1 and q-1), panics exactly if the first factor not refused is 1, and otherwise reports the single error KeyMalformed; no decoder of the crate, typed or not, lets another error show.", "quantifier": "all byte strings and all parsed PrivateKeyInfo values", "why_tests_cant": "the set of malformed documents is unbounded; tests decode a handful of well-formed files", "anchors": ["src/encoding.rs:try_from", "src/encoding.rs:uint_from_slice", "src/encoding.rs:verify_algorithm_id", "src/pkcs1v15/signing_key.rs:try_from", "src/pss/signing_key.rs:try_from"]}
{"id": "C76", "title": "The private operation, signing and encryption branch only on public data", "statement": "The branches taken, the sizes of the operands of every big-number call, and the indices, ranges and lengths used by the private operation (with and without CRT values, with and without blinding, including the final check) are the same for any two keys whose numbers are stored in equally many words and any two inputs, exactly when the blinding draws turn out alike (failure, zero, unit, neither). In PKCS#1 v1.5 and PSS signing and in PKCS#1 v1.5 and OAEP encryption they reveal, beyond the sizes and the draws, only the outcome and the number of leading zero octets of the returned signature or ciphertext, which the caller sees anyway.", "quantifier": "all pairs of well-formed keys of the same shape, all inputs, digests, prefixes, salts, messages, labels, hash functions and generators; throughout, as far as they occur: hash functions with non-empty output, moduli stored in fewer than 2^32 bits (their Rust type), hash length + salt length + 2 below 2^64", "why_tests_cant": "That no branch, index or length depends on a secret is a statement about all pairs of secrets; tests see a few pairs and only statistically.", "anchors": ["src/algorithms/rsa.rs:rsa_decrypt", "src/algorithms/rsa.rs:rsa_decrypt_and_check", "src/algorithms/rsa.rs:blind", "src/algorithms/rsa.rs:unblind", "src/algorithms/rsa.rs:rsa_encrypt", "src/algorithms/pad.rs:uint_to_be_pad", "src/algorithms/pad.rs:uint_to_zeroizing_be_pad", "src/algorithms/pkcs1v15.rs:pkcs1v15_sign_pad", "src/algorithms/pkcs1v15.rs:pkcs1v15_encrypt_pad", "src/algorithms/pss.rs:emsa_pss_encode", "src/algorithms/pss.rs:emsa_pss_encode_digest", "src/algorithms/oaep.rs:oaep_encrypt", "src/algorithms/oaep.rs:oaep_encrypt_digest", "src/pkcs1v15.rs:sign", "src/pss.rs:sign", "src/pss.rs:sign_pss_with_salt"]}
{"id": "C77", "title": "Key encoding has an exact verdict for every key", "statement": "Encoding a public key (SubjectPublicKeyInfo, PKCS#1, serde) succeeds with exactly the RFC structure for every pair of numbers unless the document would exceed the DER library's length limit, and then returns an error. Encoding a private key (PKCS#8, PKCS#1, serde), valid or not: more than two factors give an error, fewer than two a crash; with two, it crashes exactly when a factor is 0 or 1 or is stored wider than the private exponent, gives an error exactly when the factors have a common divisor or the document would be too long, and otherwise writes exactly the RFC structure. There is no other outcome.", "quantifier": "all public and private keys, well-formed or not, of every size", "why_tests_cant": "The outcome classes partition an infinite set of keys; tests encode a few valid ones.", "anchors": ["src/encoding.rs:to_pkcs8_der", "src/encoding.rs:to_public_key_der", "src/key.rs:crt_coefficient", "src/key.rs:serialize"]}
{"id": "C78", "title": "Encryption has an exact outcome for every input", "statement": "The result of PKCS#1 v1.5 and OAEP encryption, including which error is returned and the state the generator is left in, is determined for every key, message, label and generator by a relation that mentions only the numbers, octet strings and draws: first the checks of the key in order, then the label and message lengths, then the draw of the padding string or seed; for PKCS#1 v1.5 zero octets of the draw are replaced left to right by the first non-zero octets drawn next; the ciphertext is the k-octet string of em^e mod n.", "quantifier": "all public keys whose cached Montgomery parameters belong to their modulus (all that constructors make), messages, labels, hash functions (for OAEP those whose mask hash is not empty), generators and draw bounds", "why_tests_cant": "Every error cause, their priority, and the exact use of the random stream range over infinitely many keys, messages and generators.", "anchors": ["src/pkcs1v15.rs:encrypt", "src/oaep.rs:encrypt", "src/oaep.rs:encrypt_digest", "src/algorithms/pkcs1v15.rs:pkcs1v15_encrypt_pad", "src/algorithms/pkcs1v15.rs:non_zero_random_bytes", "src/algorithms/oaep.rs:oaep_encrypt", "src/algorithms/oaep.rs:oaep_encrypt_digest"]}
{"id": "C79", "title": "Decryption has an exact outcome for every input", "statement": "The result of PKCS#1 v1.5 and OAEP decryption by a well-formed key, with or without blinding, is determined for every string: which strings are refused before the private operation and with which error, the message if the recovered block is an encoding of one, the decryption error if it is not, the generator's failure if blinding cannot draw. The OAEP scheme object reports an over-long label as a decryption error after the private operation, the typed key as a label error.", "quantifier": "all well-formed keys (for the OAEP scheme object: stored in fewer than 2^32 bits), strings of every length, labels, hash functions with non-empty mask hash, generators and draw bounds", "why_tests_cant": "Tests try a few ciphertexts; the claim fixes the verdict and the exact error for all strings.", "anchors": ["src/pkcs1v15.rs:decrypt", "src/oaep.rs:decrypt", "src/oaep.rs:decrypt_digest", "src/algorithms/pkcs1v15.rs:pkcs1v15_encrypt_unpad", "src/algorithms/oaep.rs:oaep_decrypt", "src/algorithms/oaep.rs:oaep_decrypt_digest"]}
{"id": "C80", "title": "Signing has an exact outcome for every input", "statement": "The result of PKCS#1 v1.5 and PSS signing by a well-formed key, through the scheme objects and through all eleven calls of the typed keys, is determined for every digest, prefix, salt length and generator: which error comes first, that the salt is the first draw and blinding uses the state it leaves, and that the signature is the k-octet string of em^d mod n for the RFC 8017 encoding em.", "quantifier": "all well-formed keys, digests, messages, prefixes, hash functions, salt lengths (with hash length + salt length + 2 below 2^64), generators and draw bounds; throughout, as far as they occur: hash functions with non-empty output, moduli stored in fewer than 2^32 bits (their Rust type)", "why_tests_cant": "Exact error causes and the exact use of the random stream for all inputs cannot be enumerated.", "anchors": ["src/pkcs1v15.rs:sign", "src/pss.rs:sign", "src/pss.rs:sign_digest", "src/pss.rs:sign_pss_with_salt", "src/pkcs1v15/signing_key.rs:try_sign", "src/pkcs1v15/signing_key.rs:sign_prehash", "src/pss/signing_key.rs:sign_prehash_with_rng", "src/pss/blinded_signing_key.rs:sign_prehash_with_rng"]}
{"id": "C81", "title": "Verification has an exact outcome for every signature string of every length", "statement": "The result of PKCS#1 v1.5 and PSS verification through the scheme objects is determined for every key, digest and signature string, however long: success exactly for the strings RFC 8017 and the stored width admit, the verification error for all others shorter than 2^29 octets, an arithmetic overflow when the length modulo 2^32 is 2^29 or more, and a decoding error for the remaining longer strings.", "quantifier": "all public keys whose cached Montgomery parameters belong to their modulus, digests, prefixes, hash functions and signature strings of every length; for PSS moduli stored in fewer than 2^32 bits, non-empty hashes and salt lengths with hash length + salt length + 2 below 2^64 (C87 has the rest)", "why_tests_cant": "Strings of half a gigabyte and beyond are not tested, and acceptance must be exact over all strings.", "anchors": ["src/pkcs1v15.rs:verify", "src/pss.rs:verify", "src/pss.rs:verify_digest", "src/algorithms/pss.rs:emsa_pss_verify"]}
{"id": "C82", "title": "Exact observation sequences", "statement": "The sequence of branch outcomes, memory accesses, allocations, hash calls and bignum calls made by padding removal (PKCS#1 v1.5, OAEP), MGF1, integer conversion, the private operation, signing (PKCS#1 v1.5, PSS) and encryption (PKCS#1 v1.5, OAEP) is exactly a written-out list determined by public lengths, the storage sizes of the key, how the generator's draws turned out, the number of octets of the converted integer and the outcome reported to the caller. In particular padding checks read every octet exactly once, in order, and decide nothing before the final verdict.", "quantifier": "all blocks, lengths, hash functions, labels, keys whose parts fit together, ciphertexts, messages, salts and generators; throughout, as far as they occur: public keys as constructors make them (the cached Montgomery parameters are those of the modulus), hash functions with non-empty output", "why_tests_cant": "A timing or cache test compares a few inputs on one machine; the exact list for every input is a statement about all executions.", "anchors": ["src/algorithms/pkcs1v15.rs:decrypt_inner", "src/algorithms/oaep.rs:decrypt_inner", "src/algorithms/mgf.rs:mgf1_xor", "src/algorithms/pad.rs:uint_to_zeroizing_be_pad", "src/algorithms/rsa.rs:rsa_decrypt_and_check", "src/algorithms/pss.rs:emsa_pss_encode", "src/algorithms/pkcs1v15.rs:pkcs1v15_encrypt_pad"]}
{"id": "C83", "title": "Key generation has an exact outcome for every request", "statement": "Key generation with any number of primes, size and exponent either refuses (fewer than two primes, or a size below the table of the documented estimate), panics (a prime of fewer than two bits, or an exponent stored wider than the totient), or draws turn after turn primes of exactly (total + i) / nprimes bits, repeating a turn exactly when two primes are equal, the product does not have the requested size, or the exponent is not coprime to the product of all p - 1; the first other turn gives the modulus, the unique private exponent below the totient, and their storage. RsaPrivateKey::new_with_exp turns that into a well-formed key with CRT values unless the public key is refused for one of the documented reasons.", "quantifier": "for all prime searches returning odd numbers of the requested length with the two top bits set, all states, all numbers of turns, all nprimes, all sizes below 2^32 bits and all exponents of any storage width", "why_tests_cant": "tests draw a handful of keys from one seeded generator and only look at the size and number of primes; retried turns, wide exponents and odd numbers of primes are hardly ever met", "anchors": ["src/algorithms/generate.rs:generate_multi_prime_key_with_exp", "src/algorithms/generate.rs:generate_prime_with_rng", "src/key.rs:new_with_exp"]}
{"id": "C84", "title": "Every byte string has one fixed outcome as a key document", "statement": "Decoding any byte string as a PKCS#8, PKCS#1 or SubjectPublicKeyInfo key document has exactly one outcome, read off the RFC 5958 / RFC 8017 / RFC 5280 structure it is or is not the strict DER encoding of: a key that holds exactly the numbers in the document (in the words of the modulus, with CRT values exactly when the two factors are coprime), a panic exactly when the first unrefused factor is 1, or KeyMalformed. Version 1 documents need a public key and version 0 documents must not have one; attributes are skipped. Typed keys accept the same documents, PKCS#1 v1.5 signing and verifying keys only those under rsaEncryption, and the serde forms exactly the hexadecimal or binary documents of such octets.", "quantifier": "for all byte strings and all serde data, both kinds of serde format, all digests and all labels", "why_tests_cant": "tests decode a few good files and one or two damaged ones; the space of nearly right documents (versions, attributes, lengths, CRT fields, odd factors) cannot be sampled", "anchors": ["src/encoding.rs:try_from", "src/key.rs:deserialize", "src/pss/verifying_key.rs:try_from", "src/pkcs1v15/signing_key.rs:try_from"]}
{"id": "C85", "title": "The raw private operation is exact on keys that need not be correct, at every width", "statement": "rsa_decrypt refuses a ciphertext not below n; panics on one stored wider than d, or with blinding stored differently from n; computes c^d mod n when the Chinese remainder values are not used, and otherwise panics if d is stored narrower than n and computes RFC 8017 5.1.2 step 2.b, cut to the width of n, if it is not. With blinding the same exponentiation is applied to c*r^e mod n for the first usable draw r and the result multiplied by the inverse of r modulo n. rsa_decrypt_and_check gives a result out exactly if its e-th power is c modulo n, and an internal error otherwise.", "quantifier": "every coherent key object with d in at least one limb whose cached values, if any, belong to its first two factors, correct RSA key or not; every ciphertext value and width; every generator, state and bound on draws, with or without blinding", "why_tests_cant": "Tests use correct keys stored at equal widths; the value computed from wrong factors, the fault check on it and the panic that depends on both the cache and the widths are never exercised.", "anchors": ["src/algorithms/rsa.rs:rsa_decrypt", "src/algorithms/rsa.rs:rsa_decrypt_and_check", "src/algorithms/rsa.rs:blind", "src/algorithms/rsa.rs:unblind"]}
{"id": "C86", "title": "Decryption and signing are exact on keys that need not be correct", "statement": "PKCS#1 v1.5 and OAEP decryption, and PKCS#1 v1.5 and PSS signing, typed keys included, give exactly this outcome: the error of the first failing input check, or the error, panic or unfinished draw of the checked private operation (C85) on the number read from the ciphertext or encoded block, or else the message, signature or decryption error that RFC 8017 assigns to the number computed, or a padding length error if that number does not fit the length of the modulus; the last never happens when the two factors used multiply to n.", "quantifier": "every coherent key object with d in at least one limb whose cached values, if any, belong to its first two factors, correct RSA key or not; every ciphertext, digest, label, salt length, generator, state and bound on draws; throughout, as far as they occur: hash functions with non-empty output, hash length + salt length + 2 below 2^64", "why_tests_cant": "Tests use correct keys only; the key constructors accept factors that are composite or whose product differs from n, and what the schemes then do, including which error they report, is not exercised.", "anchors": ["src/pkcs1v15.rs:decrypt", "src/pkcs1v15.rs:sign", "src/oaep.rs:decrypt", "src/oaep.rs:decrypt_digest", "src/pss.rs:sign", "src/pss.rs:sign_digest", "src/algorithms/rsa.rs:rsa_decrypt_and_check"]}
{"id": "C87", "title": "Exact outcome for every signature string, object, document and salt length", "statement": "Making a signature object from any octet string gives exactly one outcome decided by the length of the string: the number it spells in as many 64-bit words as it needs below 2^29 octets, and an arithmetic panic or a decoding error from there on. Verifying any signature object of any width under any coherent key, with every one of the three verification calls, is accepted exactly when the number is below the modulus, is stored in as many words as the modulus and opens to an encoding of the digest; it is refused otherwise, except that PSS panics exactly when everything checked before it passes and the digest length, the salt length and two do not fit a machine word. The same holds for PSS verification of octet strings. Reading a signature from any serde document and turning a signature into a bit string also have exactly the described outcome.", "quantifier": "for all octet strings, signature objects of every width, coherent public keys, digests, salt lengths, serde documents of both kinds, and all results", "why_tests_cant": "Tests use signatures of the key's size and salt lengths of a few octets; strings of 2^29 octets, objects of another width and salt lengths near 2^64 are not exercised.", "anchors": ["src/pkcs1v15/signature.rs:try_from", "src/pss/signature.rs:try_from", "src/pkcs1v15.rs:verify", "src/pss.rs:verify_digest", "src/pss.rs:verify", "src/algorithms/pss.rs:emsa_pss_verify_pre", "src/pkcs1v15/signature.rs:to_bitstring", "src/pss/signature.rs:to_bitstring", "src/pss/verifying_key.rs:verify_prehash", "src/pkcs1v15/verifying_key.rs:verify_prehash"]}
{"id": "C88", "title": "Padding, seeds and salts are uniformly distributed; the blinded value is, but for one value", "statement": "Counted over all the tapes a generator could have read: every padding string of non-zero octets is produced by the same number of tapes, namely the number of ways to spread the redrawn octets over the positions, whatever is left on the tape, and the same holds of the PKCS#1 v1.5 ciphertexts made with them. Each OAEP ciphertext is produced by exactly one tape, the seed followed by what is left. Each PSS signature is produced by exactly the tapes that start with its salt. Blinding a value coprime to the modulus produces each value coprime to the modulus from the same number of tapes, except the unblinded value itself, which is produced from twice as many because the draw 0 is replaced by 1.", "quantifier": "for all well-formed keys, messages, labels, hash functions, padding strings, seeds, salts, blinded values, numbers of redraws and remaining tapes; throughout, as far as they occur: hash functions with non-empty output, moduli stored in fewer than 2^32 bits (their Rust type), hash length + salt length + 2 below 2^64", "why_tests_cant": "A test can neither count tapes nor see a bias of one part in the modulus; fixed-seed tests show one tape each.", "anchors": ["src/algorithms/pkcs1v15.rs:non_zero_random_bytes", "src/pkcs1v15.rs:encrypt", "src/oaep.rs:encrypt", "src/algorithms/oaep.rs:encrypt_internal", "src/pss.rs:sign", "src/algorithms/rsa.rs:blind"]}
{"id": "C89", "title": "Building and generating a private key shows sizes, and where it stopped", "statement": "Checking, validating, precomputing, recovering the factors of, building and generating a private key, observed through the outcome of every test, every index and every call into the bignum crate with the storage sizes of its operands, shows a trace that is written out as a function of sizes alone (words of modulus, exponents and factors, number of factors, size of the key asked for). A run that succeeds shows all of it; a run that fails shows the same trace up to the check that failed. Two keys built from factors stored alike therefore show the same. A generation shows, for each turn that it gave up, the trace of a turn up to the check that failed, then one whole turn and the building of the key.", "quantifier": "for all moduli, exponents, lists of factors and key objects, consistent or not; for all prime searches that return numbers of the length asked for, sizes, exponents and numbers of turns", "why_tests_cant": "A test sees results, not the branches taken or the operand sizes, and cannot compare all keys of a size.", "anchors": ["src/key.rs:check_public_with_max_size", "src/key.rs:validate", "src/key.rs:precompute", "src/key.rs:from_components", "src/key.rs:from_p_q", "src/key.rs:from_primes", "src/key.rs:new_with_exp", "src/algorithms/rsa.rs:recover_primes", "src/algorithms/rsa.rs:compute_modulus", "src/algorithms/rsa.rs:compute_private_exponent_euler_totient", "src/algorithms/rsa.rs:compute_private_exponent_carmicheal", "src/algorithms/generate.rs:generate_multi_prime_key_with_exp"]}
{"id": "C90", "title": "A key survives any sequence of writing, reading, taking apart and putting together", "statement": "Take a correct two-prime private key that validation accepts, with d below the modulus. Let it go through any finite sequence of steps: written and read back as PKCS#8, PKCS#1 or serde data (binary or text), CRT values computed or cleared, taken apart and put together by from_components, its public half taken, the public half written and read back as SPKI, PKCS#1 or serde data or rebuilt by new or new_unchecked. No step can fail. At the end there is a copy: same numbers, equal under PartialEq, accepted by validation. All copies of one kind write identical documents, and all objects just read from documents are identical objects whatever the formats. Any private copy signs and decrypts as any other; what is encrypted to any public copy any private copy decrypts; what any private copy signs, every public copy accepts that was once written and read, even if the original is stored with spare limbs and rejects its own signatures. Keys made by from_p_q of two primes and by new_with_exp are such keys.", "quantifier": "all such keys, all finite sequences of steps in any order, all messages, hashes, labels, salts and generators; throughout, as far as they occur: hash functions with non-empty output, hash length + salt length + 2 below 2^64", "why_tests_cant": "Tests try one round trip of one format on a few keys; the sequences of steps are unboundedly many and the claim relates every pair of objects reached.", "anchors": ["src/encoding.rs:to_pkcs8_der", "src/encoding.rs:to_public_key_der", "src/encoding.rs:try_from", "src/key.rs:precompute", "src/key.rs:clear_precomputed", "src/key.rs:from_components", "src/key.rs:to_public_key", "src/key.rs:new_unchecked", "src/key.rs:serialize", "src/key.rs:deserialize"]}
{"id": "C91", "title": "The struct documents of the encryption keys: what is accepted, what is kept, what is not recorded", "statement": "The encryption and decryption keys of OAEP and PKCS#1 v1.5 are (de)serialised by derived serde code as a struct. Exactly these maps are accepted as an OAEP key: one value for inner holding a document of the inner key, at most one value for label saying no label or giving octets below 256, one unit each for phantom and mg_phantom; fields of other names are skipped. A written key is read back with the same numbers and the same label, whatever the order of the fields and whatever foreign fields are among them, by name or by position, also where the format writes nothing and unit alike; what the encryption key so read encrypts, the decryption key so read decrypts. Two keys with the same document have the same numbers and label. Everything else is refused with an error, except that a decryption key document may crash the reader, exactly through an inner key the PKCS#8 decoder crashes on. A decryption key document is never read as an encryption key. The document does not record: the hash functions (any pair reads it), the presence of a label (a document that lost it is accepted as a key without one) and the scheme (an OAEP document is accepted as a PKCS#1 v1.5 key; the reverse is refused).", "quantifier": "all documents (any list of named values), all keys, labels, hash functions, text and binary formats, orders of fields, foreign fields; throughout, as far as they occur: public keys as constructors make them (the cached Montgomery parameters are those of the modulus), hash functions with non-empty output", "why_tests_cant": "The tests compare one document per type with a fixed token list, without a label; they say nothing about other orders, missing, repeated or foreign fields, labels, or reading a document as another type.", "anchors": ["src/oaep/encrypting_key.rs:EncryptingKey", "src/oaep/decrypting_key.rs:DecryptingKey", "src/pkcs1v15/encrypting_key.rs:EncryptingKey", "src/pkcs1v15/decrypting_key.rs:DecryptingKey", "src/key.rs:serialize", "src/key.rs:deserialize"]}
{"id": "C92", "title": "A key in service answers as a party would that knows only the numbers", "statement": "Against any peer that chooses each request (decryption, signing, encryption, verification in both families of schemes) in the light of all earlier answers, a service that answers through arbitrary copies of a correct two-prime key, each with its own generator or none, produces exactly the histories of a party that knows only n, e and some exponent undoing e and answers by RFC 8017. So the histories do not depend on the factors, the CRT values, the copies used or the private exponent chosen; they are determined by the generators; where no randomness is asked for, blinding cannot be seen; every turn is answered; what was encrypted is decrypted and what was signed is found valid anywhere in the history.", "quantifier": "for every correct two-prime key the crate accepts, every peer strategy, every generator and sequence of its states, every history of any length, every choice of copies that were written and read back at least once (or any copies of a key stored without spare limbs); throughout, as far as they occur: hash functions with non-empty output, hash length + salt length + 2 below 2^64", "why_tests_cant": "Tests run fixed requests against one key object; they cannot cover adaptive sequences of any length, nor equality of behaviour across all ways a key object may have come about.", "anchors": ["src/algorithms/rsa.rs:rsa_decrypt", "src/pkcs1v15.rs:decrypt", "src/oaep.rs:decrypt", "src/pkcs1v15.rs:sign", "src/pss.rs:sign", "src/key.rs:RsaPrivateKey"]}
{"id": "C93", "title": "Watching every private operation does not tell two private keys behind one public key apart", "statement": "For two correct keys with the same public half stored alike (same sizes, CRT values in both or neither) whose private exponents, factors, order of factors and CRT values may differ, every private operation gives the same answer together with the same trace of observations (branches, indices, lengths, sizes of bignum operands), and so do whole sessions with a peer that chooses each request from all earlier answers and traces. Such keys exist for every private exponent that fits and every order of the factors. How a key is stored (with or without CRT values) does show.", "quantifier": "for all pairs of such keys, all requests, all generators and their states, all adaptive peers and histories of any length", "why_tests_cant": "A test compares timings of a few runs of one key; it cannot quantify over all keys behind a public key, nor over all strategies of a peer that watches.", "anchors": ["src/algorithms/rsa.rs:rsa_decrypt_and_check", "src/algorithms/rsa.rs:rsa_decrypt", "src/pkcs1v15.rs:decrypt", "src/oaep.rs:decrypt", "src/pss.rs:sign"]}
{"id": "C94", "title": "The loops that draw again end with probability one, after a known number of draws", "statement": "Over all tapes of N octets, making a padding string of len non-zero octets fails on exactly those with fewer than len non-zero octets, sum over i < len of C(N,i)*255^i of the 256^N; PKCS#1 v1.5 encryption of a message that fits fails on exactly these and succeeds on all others. The proportion goes to zero as N grows; the probabilities of drawing i octets again, multichoose(len,i)*255^len/256^(len+i), add up to one and their mean is len/255. Over all tapes of N numbers below n, the blinded private operation of a correct key fails (with the generator's error) on exactly the (n-1-phi(n))^N made of non-zero non-units only, and on every other tape gives the unblinded result; so do decryption and PKCS#1 v1.5 signing. That proportion goes to zero, the probabilities of i unusable draws add up to one and their mean is (n-1-phi(n))/(phi(n)+1). Blinded PSS signing makes the signature of each salt from exactly 256^M*(n^N-(n-1-phi(n))^N) pairs of tapes of saltLen+M octets and N numbers: all salts are equally likely, independently of the blinding.", "quantifier": "all padding lengths, all tapes and tape lengths (and the limit as they grow), all correct keys, ciphertexts, messages, hash functions, salts; fuel larger than the tape; throughout, as far as they occur: hash functions with non-empty output, moduli stored in fewer than 2^32 bits (their Rust type), hash length + salt length + 2 below 2^64", "why_tests_cant": "tests with a seeded generator see a handful of redraws; that no input makes a loop run on, the exact failure counts and the limit are statements about all tapes of all lengths", "anchors": ["src/algorithms/pkcs1v15.rs:non_zero_random_bytes", "src/algorithms/rsa.rs:blind", "src/algorithms/rsa.rs:rsa_decrypt_and_check", "src/pss.rs:sign", "src/pkcs1v15.rs:encrypt"]}
{"id": "C95", "title": "Which keys generation gives, with which probability", "statement": "If the prime search is any function of fresh, uniform and independent random choices, then among all tapes of i+1 turns the number from which generation gives components with primes in a set E after exactly i+1 turns is badTurns^i * turnsInto(E), and the number of N-turn tapes still searching is badTurns^N. Hence the primes of the key are distributed exactly as the draws of one turn conditional on being usable (distinct, product of the right size, coprime to the exponent); the number of repeated turns is independent of the key and has mean badTurns/goodTurns; generation ends with probability one if some turn is usable and never otherwise; and if different choices find different primes, all two-prime keys are equally likely. For any number of primes at component level, and for RsaPrivateKey::new_with_exp.", "quantifier": "all search functions on a finite set of choices, all numbers of primes and sizes that are searched for, all exponents not wider than the number of primes in limbs, all sets E, all numbers of turns", "why_tests_cant": "A test sees a few keys; a bias among 2^2000 keys or a dependence of the key on the number of retries cannot be seen in any sample, and the statement is about a limit over all tapes.", "anchors": ["src/algorithms/generate.rs:generate_multi_prime_key_with_exp", "src/key.rs:new_with_exp"]}
{"id": "C96", "title": "Operations use a generator only by calling it, and sharing one keeps requests independent", "statement": "Every operation that takes a generator (PKCS#1 v1.5 and OAEP encryption; decryption and PKCS#1 v1.5 signing with or without blinding; PSS signing; OAEP and PSS both through the dynamic and the typed interface) makes a finite run of calls of a stated form: PKCS#1 v1.5 encryption none or one of k-|M|-3 octets and then single octets, OAEP none or one of hLen octets, PSS one of the salt length and then what blinding asks, blinding numbers below n, and nothing else without blinding. The answers to these calls determine the outcome for every generator, and the generator is left where the calls lead. A call that fails is the last, and the outcome is the generator error. Requests made in turn of one generator split its calls into one run each, and each outcome is determined by its own run. With a perfect generator the probability of a sequence of outcomes is the product of the probabilities of each, and the probabilities of all outcomes add up to one. A message too long to encrypt, a ciphertext of wrong length or not below n is refused before any call; PSS signing draws its salt before it looks at the digest. The outcomes are those of the rest of the model.", "quantifier": "all generators and states (including those that fail), all keys, all inputs, all hash functions, all sequences of requests, all outcomes", "why_tests_cant": "A test uses one seeded generator and one request; it cannot see that the outcome depends on nothing else about the generator, what state a failed request leaves it in, or that outcomes of later requests are independent of earlier ones.", "anchors": ["src/pkcs1v15.rs:encrypt", "src/oaep.rs:encrypt", "src/oaep.rs:encrypt_digest", "src/pss.rs:sign", "src/pss.rs:sign_digest", "src/algorithms/rsa.rs:rsa_decrypt_and_check", "src/algorithms/rsa.rs:blind", "src/algorithms/pkcs1v15.rs:non_zero_random_bytes"]}
{"id": "C97", "title": "What comparing private keys with == shows", "statement": "An observer of every test, slice comparison and bignum call (with the storage sizes of its operands) made while two private keys are compared with == sees a function of the storage sizes and of how far the two keys agree: whether modulus, public exponent and private exponent are the same numbers, in that order, and then how many leading factors are. From what is seen that degree of agreement can be read off, so the comparison stops at the first difference and is not constant time; but if the moduli or public exponents differ, nothing of the private parts is seen, not even their sizes.", "quantifier": "All pairs of private keys, valid or not, with any number of factors of any sizes.", "why_tests_cant": "Whether a comparison leaks is a statement about all pairs of keys that agree equally far; a test compares the traces of a few pairs.", "anchors": ["src/key.rs:eq", "src/key.rs:RsaPrivateKey", "src/key.rs:RsaPublicKey"]}
{"id": "C98", "title": "With a perfect generator, the exact probability of every outcome", "statement": "Let the generator answer every call with independent, uniformly distributed octets and numbers below the modulus, let the key be a correct one, and let every loop that draws again be cut off after a given number of draws. PKCS#1 v1.5 encryption gives the ciphertext of each admissible padding string of len octets with the same probability (1/256 + ... + 1/256^(fuel+1))^len, which tends to 1/255^len, and otherwise is cut off. OAEP encryption gives the ciphertext of each seed with probability 256^-hLen. Decryption and PKCS#1 v1.5 signing without blinding have one outcome, with probability one; with blinding they have the same outcome, except that with probability ((n-1-phi(n))/n)^fuel, which tends to zero, blinding is cut off, or, if they are refused before the private-key operation, have it for sure without touching the generator. PSS signing gives the signature of each salt with probability 256^-saltLen, times the probability that blinding is not cut off if there is blinding.", "quantifier": "All well-formed private keys of any number of primes and either form; for encryption, keys that pass check_public; all messages of admissible length, labels, ciphertexts, digests of the right length, salt lengths for which an encoding fits, hash functions, bounds on the number of draws; throughout, as far as they occur: precision of the modulus below 2^32 bits, hash functions with non-empty output, sums of lengths below 2^64.", "why_tests_cant": "Probabilities are statements about all answers of a generator at once; a test runs the code on some answers, and no number of runs shows that two ciphertexts are exactly equally likely or that blinding changes the distribution of outcomes by exactly the stated amount.", "anchors": ["src/algorithms/pkcs1v15.rs:non_zero_random_bytes", "src/algorithms/pkcs1v15.rs:pkcs1v15_encrypt_pad", "src/algorithms/oaep.rs:encrypt_internal", "src/algorithms/rsa.rs:blind", "src/algorithms/rsa.rs:rsa_decrypt_and_check", "src/pss.rs:sign", "src/pss.rs:sign_digest", "src/pkcs1v15.rs:encrypt", "src/pkcs1v15.rs:decrypt", "src/pkcs1v15.rs:sign", "src/oaep.rs:encrypt", "src/oaep.rs:decrypt"]}
{"id": "C99", "title": "How many strings are accepted", "statement": "Under a correct key with a modulus of k octets: exactly 255^(k-3-|m|) strings of k octets decrypt to a message m that fits by PKCS#1 v1.5 (none to one that does not), and 255^8*(256^(k-10) - 255^(k-10)) decrypt to anything, fewer than one string in 2^16. Exactly 256^hLen strings decrypt to a message that fits by OAEP with a given label, and 256^hLen*(256^(k-2*hLen-1) - 1)/255 decrypt to anything, fewer than one in 256^(hLen+1). Exactly one string of k octets is a PKCS#1 v1.5 signature of a digest whose encoding fits, or none if the modulus is stored with spare limbs. Exactly 256^sLen strings of k octets below the modulus are PSS signatures of a digest with salts of sLen octets, if the modulus does not have 8j+1 bits; if it does, there is a further one for each salt whose encoding after an octet 1 is below the modulus. A typed verifying key accepts as many signature objects.", "quantifier": "All well-formed keys of any number of primes; for PKCS#1 v1.5 decryption, keys that pass check_public; with or without blinding, when blinding finds a usable number; all messages, labels below 2^61 octets, digests, salt lengths, hash functions; throughout, as far as they occur: precision of the modulus below 2^32 bits, hash functions with non-empty output, sums of lengths below 2^64, for OAEP as a whole and for messages a modulus of at least 11 octets, for PKCS#1 v1.5 signatures a modulus of fewer than 2^29 octets.", "why_tests_cant": "The counts range over all strings of the length of the modulus; no test can go through them, and a decoder that accepts too much or too little may differ from the right one on a vanishing fraction of them.", "anchors": ["src/pkcs1v15.rs:decrypt", "src/algorithms/pkcs1v15.rs:pkcs1v15_encrypt_unpad", "src/oaep.rs:decrypt", "src/oaep.rs:decrypt_digest", "src/algorithms/oaep.rs:oaep_decrypt", "src/pkcs1v15.rs:verify", "src/pss.rs:verify", "src/algorithms/pss.rs:emsa_pss_verify"]}
{"id": "C100", "title": "A fault in the cached CRT values gives away a factor, and never leaves the checked operation", "statement": "Replace the cached dP, dQ and qInv of a two-prime key by any numbers, and its private exponent as well. The unchecked private operation then computes the sum of RFC 8017, 5.1.2 (2.b) with those numbers, always below the modulus. If dQ is still right, each result, blinded or not, is the right one or gcd(result^e - c, n) = q; if dP and qInv are still right, it is the right one or the gcd is p. With a wrong dP alone exactly q*(1 + gcd(p-1, dP*e-1)) ciphertexts are still decrypted rightly, at most q*(p+1)/2 of them. The checked operation, and PKCS#1 v1.5 signing and decryption, PSS signing and OAEP decryption with it, has the outcome of the sound key or fails with the internal error, whatever the numbers.", "quantifier": "All well-formed two-prime keys, all replacements of the cached values and of the private exponent (of the same width), all ciphertexts of the width of the modulus, messages, hash functions and generators, with or without blinding; for the counts, dP not 0.", "why_tests_cant": "A fault strikes one of a huge number of values, and a wrong result may be right for almost half of the ciphertexts; that no fault at all gets past the check, and how much a result without it tells, is a statement about all of them.", "anchors": ["src/algorithms/rsa.rs:rsa_decrypt", "src/algorithms/rsa.rs:rsa_decrypt_and_check", "src/pkcs1v15.rs:sign", "src/pkcs1v15.rs:decrypt", "src/pss.rs:sign_pss_with_salt", "src/pss.rs:sign_pss_with_salt_digest", "src/oaep.rs:decrypt", "src/oaep.rs:decrypt_digest"]}
{"id": "C101", "title": "What the algebra of the raw operations gives away, and what the encodings make of it", "statement": "The raw public and private operations turn products modulo n into products, so the result of a ciphertext follows from that of its product with u^e for any invertible u. Encryption leaves exactly the product over the primes of 1 + gcd(p-1, e-1) messages unchanged, at least 3 for each prime, 0, 1 and n-1 always. i encryptions in a row bring every message back exactly if p-1 divides e^i - 1 for every prime p, which some i below n does; whoever sees a ciphertext come back has the plaintext one step earlier. A ciphertext has the Jacobi symbol of the message. The product of two PKCS#1 v1.5 signatures is a signature of a third digest exactly if the encodings multiply to its encoding modulo n. 0, 1 and n-1 are never accepted as PKCS#1 v1.5 signatures nor decrypted to a message, and 0 and 1 are never accepted as PSS signatures.", "quantifier": "All well-formed keys of any number of primes (for products under the public operation, signatures: any public key; n-1 as signature: odd exponent), all numbers below the modulus, all generators with or without blinding, all digests, prefixes, hash functions with non-empty output and salt lengths; signature strings below 2^29 octets; for PSS, precision of the modulus below 2^32 bits and sums of lengths below 2^64; for PKCS#1 v1.5 decryption, keys that pass check_public, and blinding that finds a usable number.", "why_tests_cant": "Counts and cycles range over all numbers below the modulus; that no third signature arises from two is a statement about all triples.", "anchors": ["src/algorithms/rsa.rs:rsa_encrypt", "src/algorithms/rsa.rs:rsa_decrypt", "src/algorithms/rsa.rs:rsa_decrypt_and_check", "src/pkcs1v15.rs:verify", "src/pkcs1v15.rs:decrypt", "src/pss.rs:verify"]}
{"id": "C102", "title": "A build without overflow checks and debug assertions does the same, and where the checks would stop it accepts nothing", "statement": "Compiled without overflow checks and debug assertions, every function does exactly what it does with them unless one of these checks stops the latter. Making keys, computing cached values and reading key documents agree for all inputs. Verification agrees for signatures below 2^29 octets and salt lengths that do not overflow, the private operations for every key that can be made, encryption for every key in use. Beyond that the unchecked build refuses every longer signature; a PSS check whose salt length overflows accepts nothing, it refuses or panics at a slice bound, and a genuine signature always panics; the DigestInfo prefix is made from lengths modulo 256 and is right exactly when everything fits short DER lengths.", "quantifier": "All keys, generators, messages, digests, signatures, byte strings, fuels; agreement outright for Sized private keys and coherent public keys with a modulus below 2^32 bits of precision, hash functions with non-empty output; overflow of the salt length for hash outputs below 2^63 octets, salt lengths below 2^64 and signatures below 2^29 octets.", "why_tests_cant": "Tests run in one build profile; agreement of the two is a statement about every input of every function, and the differences sit at lengths no test allocates.", "anchors": ["src/algorithms/pss.rs:emsa_pss_verify_pre", "src/algorithms/pss.rs:emsa_pss_verify_salt", "src/algorithms/pss.rs:emsa_pss_encode", "src/algorithms/pkcs1v15.rs:pkcs1v15_generate_prefix", "src/algorithms/pkcs1v15.rs:pkcs1v15_sign_unpad", "src/algorithms/pad.rs:left_pad", "src/algorithms/oaep.rs:encrypt_internal", "src/algorithms/rsa.rs:blind", "src/algorithms/rsa.rs:unblind", "src/key.rs:precompute", "src/algorithms/generate.rs:generate_multi_prime_key_with_exp"]}
{"id": "C103", "title": "What the size of a machine word changes in signature verification", "statement": "On a machine with words of w octets, PKCS#1 v1.5 verification accepts a string exactly if its integer is below the modulus, its e-th power modulo n is the encoding of the digest, and the string takes as many words as the stored modulus; the typed verifiers of both schemes refuse every string that does not take as many words, and otherwise have the same outcome on all machines. PSS verification of strings has the same outcome on every machine. With a modulus stored without spare words, what one machine accepts a machine with words a multiple as long accepts. A genuine signature written with to_bytes on a 64-bit machine is accepted on a 32-bit one exactly if the number of octets of the modulus leaves no remainder or more than four when divided by eight; the other way round it is always accepted. A genuine signature refused on this account is exhibited. Ciphertext strings are taken up to the words of the modulus.", "quantifier": "All word sizes, coherent public keys, odd moduli, exponents, stored precisions, prefixes, digests, hash functions, salt lengths and signature strings below 2^29 octets; comparisons between machines for moduli stored without spare words, where stated, and, for to_bytes, below 2^28 octets.", "why_tests_cant": "Tests run on one kind of machine with one word size, and the keys they use have a whole number of words on all of them.", "anchors": ["src/pkcs1v15.rs:verify", "src/pss.rs:verify", "src/pss.rs:verify_digest", "src/pkcs1v15/signature.rs:try_from", "src/pkcs1v15/signature.rs:from", "src/pss/signature.rs:try_from", "src/pss/signature.rs:from", "src/algorithms/rsa.rs:reduce_vartime", "src/algorithms/pad.rs:uint_to_be_pad"]}
{"id": "C104", "title": "What the size of a machine word changes in signing and decryption", "statement": "On a machine with words of w octets the checked private operation of a well-formed key returns c^d mod n at the width of the modulus, with or without blinding and with or without cached CRT values, or reports that the generator failed or found no usable value; precompute succeeds and keeps the key well-formed. Two machines with the same modulus and private exponent make the same PKCS#1 v1.5 and, with the same salt, PSS signatures and decrypt OAEP ciphertexts alike; PKCS#1 v1.5 ciphertexts they decrypt alike if both accept the public key and the string fits the words of the modulus on both, and a ciphertext is exhibited that one decrypts and the other refuses. Machines whose words divide 4096 bits accept the same public keys, stored without spare words. A PSS signature made on one machine is accepted by Pss::verify on every other; a PKCS#1 v1.5 signature, and either kind under a verifying key, exactly if its octets take there as many words as the stored modulus. A modulus multiplied from two primes of b bits has no spare words, and its key accepts its own PKCS#1 v1.5 signatures, exactly if b divided by the bits of a word leaves no remainder or more than half a word, so a key size good on a 64-bit machine may be bad on a 32-bit one and the other way round. With words of eight octets all this is the rest of the model.", "quantifier": "All word sizes, well-formed private keys with any number of primes, cached values or none, coherent public keys, generators (settling within the draws allowed, where an outcome is stated), prefixes, digests, hash functions with non-empty output, salts and ciphertexts; moduli below 2^29 octets for verification; digests of the hash's length and sums of lengths below 2^64 for PSS; for precompute, primes no wider than the private exponent.", "why_tests_cant": "Tests run on one kind of machine with one word size and cannot compare what two machines do with the same key.", "anchors": ["src/algorithms/rsa.rs:rsa_decrypt", "src/algorithms/rsa.rs:rsa_decrypt_and_check", "src/algorithms/rsa.rs:blind", "src/algorithms/rsa.rs:unblind", "src/key.rs:precompute", "src/pkcs1v15.rs:sign", "src/pkcs1v15.rs:decrypt", "src/pss.rs:sign_pss_with_salt", "src/oaep.rs:decrypt", "src/key.rs:check_public"]}
{"id": "C105", "title": "What the size of a machine word changes in accepting keys and encrypting", "statement": "On a machine with words of w octets validate accepts exactly the keys that pass the checks of a public key, whose factors exceed one and multiply to the modulus modulo the storage of the modulus, and for which d*e, modulo twice the storage of d, leaves one modulo each factor less one. A public key document accepted on one machine whose words divide 4096 bits is accepted on every other, with the same numbers, on each stored without spare words. A PKCS#8 document accepted on one machine is stored there without spare words, is a well-formed key if its numbers are those of an RSA key, and is accepted on another machine, with the same numbers, exactly if the product of the factors modulo the storage there is the modulus, being malformed otherwise; so a document whose factors do multiply to the modulus is accepted everywhere, a document accepted with wide words is accepted with words that divide them, and a document is exhibited that is accepted with words of four octets and refused with words of eight. Machines with the same public key make the same PKCS#1 v1.5 and OAEP ciphertexts from the same generator. With words of eight octets all this is the rest of the model.", "quantifier": "All word sizes (dividing 4096 bits, for documents), keys with any number of factors whose private exponent takes at least one word, octet strings as documents, coherent public keys, generators, messages, labels below the limit, hash functions with non-empty output; for OAEP, moduli below 2^32 octets.", "why_tests_cant": "Tests run on one kind of machine with one word size and cannot compare which keys two machines accept.", "anchors": ["src/key.rs:validate", "src/key.rs:from_components", "src/key.rs:new", "src/encoding.rs:try_from", "src/encoding.rs:uint_from_slice", "src/pkcs1v15.rs:encrypt", "src/oaep.rs:encrypt", "src/key.rs:check_public"]}
{"id": "C106", "title": "What the size of a machine word changes in building keys from primes", "statement": "On a machine with words of w octets from_p_q makes a key of two primes exactly if they differ and are odd, the public exponent is stored in no more words than the primes together and is invertible modulo the least common multiple of the primes less one, and the public key is acceptable at that storage; the key is then well-formed, its modulus and private exponent take as many words as the primes together, the private exponent is the least inverse, and the CRT values are present. from_primes does the same for two or more primes with the product of the primes less one, the public exponent being allowed one more time the words of the first prime. Machines that make a key of the same primes and public exponent make the same key. Of primes of b bits stored without spare words from_p_q makes a key that signs, and whose PKCS#1 v1.5 signatures the same machine accepts exactly if b divided by the bits of a word leaves no remainder or more than half a word. With words of eight octets all this is the rest of the model.", "quantifier": "All word sizes, primes and lists of primes of any storage, public exponents of any storage; for the signatures, primes whose product has exactly 2b bits, blinding that finds a factor, digests of the length of the scheme that fit the modulus.", "why_tests_cant": "Tests build keys on one kind of machine, from a few primes of the usual sizes, and never compare two word sizes.", "anchors": ["src/key.rs:from_p_q", "src/key.rs:from_primes", "src/key.rs:from_components", "src/algorithms/rsa.rs:compute_modulus", "src/algorithms/rsa.rs:compute_private_exponent_euler_totient", "src/algorithms/rsa.rs:compute_private_exponent_carmicheal"]}
{"id": "C107", "title": "What the size of a machine word changes in key generation", "statement": "On a machine with words of w octets a key made by new_with_exp from a search that returns primes is well-formed, has a modulus of exactly the bits asked for, the given public exponent, two primes, CRT values, and the least private exponent that inverts the public one modulo the product of the primes less one. If the prime searches of two machines find the same primes from the same states, generation with any number of primes returns the same components after the same number of turns and in the same state, or the same error or panic, or both run on; and so does new_with_exp if the primes have the bits asked for and are stored without spare words and the words divide 2048 bits. A key generated with 2b bits signs, and the machine that generated it accepts its PKCS#1 v1.5 signatures exactly if b divided by the bits of a word leaves no remainder or more than half a word. With words of eight octets all this is the rest of the model.", "quantifier": "All word sizes (dividing 2048 bits, for new_with_exp on two machines), prime searches, states, numbers of primes, bit sizes (below 2^32 where the storage matters), public exponents (stored in at most one word more than there are primes, where two machines are compared); for the signatures, blinding that finds a factor, digests of the length of the scheme that fit the modulus.", "why_tests_cant": "Tests generate a few keys on one kind of machine; they do not compare word sizes, and the sizes they use leave no spare word.", "anchors": ["src/algorithms/generate.rs:generate_multi_prime_key_with_exp", "src/algorithms/generate.rs:generate_prime_with_rng", "src/key.rs:new_with_exp", "src/key.rs:from_components", "src/algorithms/rsa.rs:compute_modulus", "src/algorithms/rsa.rs:compute_private_exponent_euler_totient"]}
{"id": "C108", "title": "What the size of a machine word changes in the recovery of primes", "statement": "On a machine with words of w octets any pair recover_primes returns multiplies to the modulus, the larger factor first; it finds the factors q < p of n if d e is 1 modulo lcm(p-1, q-1), e is above 65536, n and e are stored in at most twice the words of d, and u (p+q-1) is at most n, where u = (de-1) gcd(n-1, de-1) / ((p-1)(q-1)). An exponent up to 65536 is refused, and above that the function panics exactly if n or e has more than twice the words of d or d is zero. Two machines on which n and e have at most twice the words of d return the same factors or the same error; otherwise they can part: of one modulus of 65 bits a machine with words of eight octets finds the primes and one with words of four panics. On no machine does from_components without factors make a key. With words of eight octets all this is the rest of the model.", "quantifier": "All word sizes, moduli above zero (odd, for from_components), public and private exponents, and numbers of words they are stored in.", "why_tests_cant": "Tests recover the primes of one key on one kind of machine; they do not compare word sizes, nor vary the storage of the numbers.", "anchors": ["src/algorithms/rsa.rs:recover_primes", "src/key.rs:from_components", "src/key.rs:validate"]}
{"id": "C109", "title": "What the size of a machine word changes in the writing of keys", "statement": "On a machine with words of any size an acceptable public key is written as the RFC 5280 SubjectPublicKeyInfo around the RFC 8017 RSAPublicKey of its numbers, and a well-formed private key of two primes, stored no wider than its private exponent, as the RFC 5208 PrivateKeyInfo around the RFC 8017 RSAPrivateKey of its numbers, with dP = d mod p-1, dQ = d mod q-1 and qInv below p with qInv q = 1 mod p: the document depends on the numbers only, not on the words. If d is below n, every machine whose words divide the 4096 bits allowed reads the document as a well-formed key with the same numbers and a modulus without spare words; so for every key from_p_q makes of two primes. A prime stored wider than the private exponent makes the encoder panic. With words of eight octets all this is the rest of the model.", "quantifier": "All pairs of word sizes (of the reading machine: divisors of 4096 bits), keys, and numbers of words they are stored in.", "why_tests_cant": "Tests write documents of a few keys on one kind of machine; they cannot exchange documents between machines of every word size.", "anchors": ["src/encoding.rs:to_pkcs8_der", "src/encoding.rs:to_public_key_der", "src/key.rs:crt_coefficient", "src/key.rs:from_p_q"]}
