# Formal model of RustCrypto/RSA in Lean 4 — design

The deliverable is the Lean project in `lean/`. `properties.jsonl` states the properties in English, `MANIFEST.json` maps
each to its theorems, this file says what was modelled, what is trusted, how each property is proved, and which properties
turned out to be false of the code.

## 1. Shape

| directory | contents |
|---|---|
| `lean/Verif/Model` | the model, function by function; every definition cites file and lines of /repo |
| `lean/Verif/Spec` | small independent specifications: RFC 8017 primitives and encodings, DER, hexadecimal text, what a well-formed key is, what the external prime search promises. They do not use the model's functions, only the types a statement has to mention |
| `lean/Verif/Proof` | helper lemmas |
| `lean/Verif/Props` | the property theorems, `Cnn_...`, each with a concrete non-trivial example meeting its hypotheses |
| `lean/Verif/Conformance` | tests, not proofs: the model run by the kernel on the repository's own test vectors |

A theorem whose name ends in `_partial` proves part of the English property. The other theorems listed for that property
then say what happens in the missing part, by a general theorem or by a concrete run of the model that contradicts the
English claim.

## 2. How Rust is rendered

* `Result<T, Error>`, panics and non-termination are one data type: `Res T` = `ok | err Error | panic kind | loop`.
  Slice indexing, `copy_from_slice`, `usize` subtraction, `expect`/`unwrap`, the preconditions of `widen`/`shorten` and the
  assertions of the bignum crate are explicit `panic` values. Integer arithmetic is checked: an overflow is the panic
  it is in a build with overflow checks. "The result is not a panic" therefore also says that a release build, which
  would wrap, never gets to the wrapping case. `Model/Release.lean` repeats the functions with wrapping arithmetic and
  without debug assertions; C102 compares the two builds.
* Limbs have 64 bits, as on a 64-bit target, except in `Model/Words.lean`, which repeats signature verification and the
  signature types with the octets of a limb as a parameter, and `Model/WordsPrivate.lean`, which does so for the private
  operations, `precompute`, signing and decryption, `Model/WordsKey.lean`, for `validate`, the reading of DER documents
  and encryption, `Model/WordsPrimes.lean`, for `from_p_q` and `from_primes`, `Model/WordsGenerate.lean`, for key
  generation, `Model/WordsRecover.lean`, for `recover_primes`, and `Model/WordsWrite.lean`, for the writing of DER
  documents; C103 to C109 compare machines. There the padding functions and DER keep a 64-bit `usize`, and the Montgomery parameters of a public key are by construction those of its modulus.
* Errors of `signature::Error` (opaque outside `std`) are represented by the crate error they wrap; payloads of foreign
  errors (`Pkcs1`, `Pkcs8`, `Decode`) are dropped.
* `&mut [u8]` buffers are `List UInt8`, returned by the function that mutates them.
* Unbounded retry loops (non-zero random bytes, the blinding factor, key generation) take a fuel argument and return `loop`
  when it runs out. Theorems quantify over all fuels, and where termination matters they say exactly from which fuel on
  the result is reached (`Spec.Draws`, `Spec.ByteDraws`, `Spec.PairDraws`).
* `Model/Gen.lean` repeats the operations that take a generator with the generator passed as `&mut`: the state is returned with every
  outcome. The calls an operation may make, requests in turn and their probabilities are in `Spec/Generator.lean`.
* A random number generator is an arbitrary state machine (`RngImpl σ`) that may fail at any call. `DummyRng`, the
  placeholder for "no generator", is modelled by its panics; C61 proves that it is never called.
* A hash function is an arbitrary function with a fixed output length (`HashFn`); a digest object is such a function plus
  the bytes absorbed so far (`update`, `finalize_reset`, `finalize_fixed_reset`). No cryptographic property of hash
  functions is assumed anywhere: collision statements are made in the form "accepted, hence the hashes are equal".
* `Choice`, `ct_eq`, `conditional_assign` are their values. `u8`, `u32`, `i32` arithmetic in the constant-time loops is
  machine arithmetic (`UInt8`, `UInt32`, `BitVec 32`), which wraps. A build with overflow checks would panic instead, but
  only for blocks of 2^31 octets or more, and no accepted private key is longer than 4096 bits.
* Generic types are parameters; traits that only forward (`AsRef`, `From`, `Clone`) are the forwarded field.
* Features: the model is the crate with `encoding`, `serde`, `os_rng`, `hazmat`, `sha2` on, 64-bit limbs and a 64-bit
  `usize`.

## 3. Trusted base

1. Lean 4.33.0's kernel, and its evaluation of closed terms (`decide +kernel` is kernel reduction; no compiled code, no
   `native_decide`, no `bv_decide`, no `sorry`, no added axiom).
2. Lean's standard axioms `propext`, `Classical.choice`, `Quot.sound`. Section 8 lists which of them each theorem uses.
3. That the definitions in `Model` are a faithful reading of the cited Rust lines. The code was not run here; the
   conformance tests of section 6 are a check on the reading, not a proof.
4. That the English property and the Lean statement say the same thing. Statements use only `Spec` and the public entry
   points of the model.
5. The behaviour of the external crates, modelled as follows.
   * `crypto-bigint`, `BoxedUint`: a natural number plus a limb count, value below 2^(64 limbs). `bits_precision` is 64 limbs.
     `from_be_slice(b, bits)` fails if `b` is longer than ceil(bits/8) or the value needs more than `bits` bits, otherwise it
     has max(1, ceil(bits/64)) limbs; `to_be_bytes` gives 8 bytes per limb. Equality and order are by value, the derived `Hash` is over
     the limbs. `*` adds the limb counts, `wrapping_mul` keeps those of the left operand, `-` panics on underflow, `widen` and `shorten`
     panic in the wrong direction and `shorten` drops high limbs. `inv_mod` is the inverse if there is one. `gcd`, `sqrt`, division are exact.
     `Odd` and `NonZero` are values with the respective property. `BoxedMontyParams`/`BoxedMontyForm` are a modulus and a residue:
     `new` reduces, `pow`, `*`, `-`, `invert`, `retrieve` are modular arithmetic. `zeroize` sets all limbs to zero.
   * `try_random_mod` delivers some value below the modulus or the generator's error; the state machine decides which.
   * `crypto-primes`: the prime search is a state machine. That it returns primes (`Spec.PrimeSearch`), and primes with the two
     top bits set in the fewest limbs (`Spec.TopHalves`), are hypotheses of the theorems that need them.
   * `der`, `pkcs1`, `pkcs8`, `spki`, `const-oid`: modelled concretely (`Model/Der.lean`, `Model/Encoding.lean`,
     `Model/AlgId.lean`, `Model/Pkcs1.lean`): definite lengths, minimal lengths and integers, trailing data refused, 2^28 - 1 bytes at most.
   * `serde`'s derive macro: the generated `visit_map` and `visit_seq` are written out (`Model/SerdeStruct.lean`).
   * `serdect`, `base16ct`: hexadecimal text or raw bytes, depending on the format (`Model/Serde.lean`).
   * `signature`, `digest`, `subtle`, `zeroize`: their documented meaning.
   * The floating point estimate in key generation (`src/algorithms/generate.rs:44-61`) is modelled over the rationals.

## 4. What is modelled, and what is not

All 283 functions of `/repo/src` outside the test modules are cited by a definition or, for trait declarations and pure conversions, by a comment of the model. Per file:

| file | functions | model |
|---|---|---|
| `src/algorithms/generate.rs` | generate_multi_prime_key_with_exp, generate_prime_with_rng | `Model/Generate`, `Model/LeakKey`, `Model/Release`, `Model/WordsGenerate` |
| `src/algorithms/mgf.rs` | mgf1_xor, mgf1_xor_digest, inc_counter | `Model/Leak`, `Model/Mgf` |
| `src/algorithms/oaep.rs` | encrypt_internal, oaep_encrypt, oaep_encrypt_digest, oaep_decrypt, oaep_decrypt_digest, decrypt_inner | `Model/Gen`, `Model/Leak`, `Model/LeakOps`, `Model/OaepPad`, `Model/Release` |
| `src/algorithms/pad.rs` | left_pad, uint_to_be_pad, uint_to_zeroizing_be_pad | `Model/Leak`, `Model/LeakOps`, `Model/Pad`, `Model/Release`, `Model/Words`, `Model/WordsPrivate` |
| `src/algorithms/pkcs1v15.rs` | non_zero_random_bytes, pkcs1v15_encrypt_pad, pkcs1v15_encrypt_unpad, decrypt_inner, pkcs1v15_sign_pad, pkcs1v15_sign_unpad, pkcs1v15_generate_prefix | `Model/Gen`, `Model/Leak`, `Model/LeakOps`, `Model/Pkcs1v15Pad`, `Model/Release` |
| `src/algorithms/pss.rs` | emsa_pss_encode, emsa_pss_encode_digest, emsa_pss_verify_pre, emsa_pss_verify_salt, emsa_pss_verify, emsa_pss_verify_digest | `Model/LeakOps`, `Model/PssPad`, `Model/Release` |
| `src/algorithms/rsa.rs` | rsa_encrypt, rsa_decrypt, rsa_decrypt_and_check, blind, unblind, pow_mod_params, reduce_vartime, mul_mod_params, recover_primes, compute_modulus, compute_private_exponent_euler_totient, compute_private_exponent_carmicheal | `Model/Gen`, `Model/Leak`, `Model/LeakKey`, `Model/Release`, `Model/Rsa`, `Model/Words`, `Model/WordsPrimes`, `Model/WordsPrivate`, `Model/WordsRecover` |
| `src/dummy_rng.rs` | next_u32, next_u64, fill_bytes | `Model/Pkcs1v15` |
| `src/encoding.rs` | verify_algorithm_id, uint_from_slice, try_from, to_pkcs8_der, to_public_key_der | `Model/Encoding`, `Model/Pkcs1`, `Model/Release`, `Model/WordsKey`, `Model/WordsWrite` |
| `src/errors.rs` | fmt, from | `Model/Access` |
| `src/key.rs` | eq, hash, fmt, as_ref, drop, zeroize, from, n, e, n_params, encrypt, verify, new, new_with_max_size, new_unchecked, new_with_exp, from_components, from_p_q, from_primes, to_public_key, precompute, clear_precomputed, crt_coefficient, validate, decrypt, decrypt_blinded, sign, sign_with_rng, d, primes, dp, dq, qinv, crt_values, p_params, q_params, check_public, check_public_with_max_size, serialize, deserialize | `Model/Access`, `Model/Api`, `Model/Encoding`, `Model/Generate`, `Model/Key`, `Model/KeyTypes`, `Model/LeakEq`, `Model/LeakKey`, `Model/Release`, `Model/Serde`, `Model/WordsGenerate`, `Model/WordsKey`, `Model/WordsPrimes`, `Model/WordsPrivate`, `Model/WordsRecover`, `Model/WordsWrite` |
| `src/oaep.rs` | new, new_with_label, new_with_mgf_hash, new_with_mgf_hash_and_label, decrypt, encrypt, fmt, encrypt_digest, decrypt_digest | `Model/Access`, `Model/Api`, `Model/Gen`, `Model/Leak`, `Model/LeakOps`, `Model/Oaep`, `Model/Release`, `Model/WordsKey`, `Model/WordsPrivate` |
| `src/oaep/decrypting_key.rs` | new, new_with_label, decrypt, decrypt_with_rng, eq | `Model/Oaep` |
| `src/oaep/encrypting_key.rs` | new, new_with_label, encrypt_with_rng, eq | `Model/Oaep` |
| `src/pkcs1v15.rs` | decrypt, encrypt, new, new_unprefixed, new_raw, sign, verify | `Model/Access`, `Model/Api`, `Model/Gen`, `Model/Leak`, `Model/LeakOps`, `Model/Pkcs1v15`, `Model/Release`, `Model/Words`, `Model/WordsKey`, `Model/WordsPrivate` |
| `src/pkcs1v15/decrypting_key.rs` | new, decrypt, decrypt_with_rng, encrypting_key | `Model/Access`, `Model/Pkcs1v15` |
| `src/pkcs1v15/encrypting_key.rs` | new, encrypt_with_rng | `Model/Access`, `Model/Pkcs1v15` |
| `src/pkcs1v15/signature.rs` | to_bitstring, try_from, from, fmt, serialize, deserialize | `Model/Pkcs1v15`, `Model/Release`, `Model/Serde`, `Model/Words` |
| `src/pkcs1v15/signing_key.rs` | new, random, new_with_prefix, random_with_prefix, new_unprefixed, random_unprefixed, try_sign_digest, sign_prehash, try_sign_digest_with_rng, try_sign_with_rng, try_sign, as_ref, to_pkcs8_der, from, verifying_key, try_from, eq, serialize, deserialize | `Model/Access`, `Model/Encoding`, `Model/Pkcs1v15`, `Model/Serde` |
| `src/pkcs1v15/verifying_key.rs` | new, new_with_prefix, new_unprefixed, verify_digest, verify_prehash, verify, as_ref, clone, to_public_key_der, from, try_from, eq, serialize, deserialize | `Model/Access`, `Model/Encoding`, `Model/Pkcs1v15`, `Model/Serde`, `Model/Words` |
| `src/pss.rs` | new, new_with_salt, new_blinded, new_blinded_with_salt, sign, verify, fmt, verify_digest, sign_digest, sign_pss_with_salt, sign_pss_with_salt_digest, get_default_pss_signature_algo_id, get_pss_signature_algo_id | `Model/Access`, `Model/AlgId`, `Model/Api`, `Model/Gen`, `Model/LeakOps`, `Model/Pss`, `Model/Release`, `Model/Words`, `Model/WordsPrivate` |
| `src/pss/blinded_signing_key.rs` | new, new_with_salt_len, random, random_with_salt_len, salt_len, try_sign_with_rng, try_sign_digest_with_rng, sign_prehash_with_rng, as_ref, signature_algorithm_identifier, to_pkcs8_der, from, verifying_key, try_from, eq, serialize, deserialize | `Model/Access`, `Model/AlgId`, `Model/Encoding`, `Model/Pss`, `Model/Serde` |
| `src/pss/signature.rs` | to_bitstring, try_from, from, fmt, serialize, deserialize | `Model/Pss`, `Model/Release`, `Model/Serde`, `Model/Words` |
| `src/pss/signing_key.rs` | new, new_with_salt_len, random, random_with_salt_len, salt_len, try_sign_digest_with_rng, try_sign_with_rng, sign_prehash_with_rng, sign_prehash, try_sign, as_ref, signature_algorithm_identifier, to_pkcs8_der, from, verifying_key, try_from, eq, serialize, deserialize | `Model/Access`, `Model/AlgId`, `Model/Encoding`, `Model/Pss`, `Model/Serde` |
| `src/pss/verifying_key.rs` | new, new_with_salt_len, salt_len, verify_digest, verify_prehash, verify, as_ref, clone, to_public_key_der, from, try_from, eq, serialize, deserialize | `Model/Access`, `Model/Encoding`, `Model/Pss`, `Model/Serde`, `Model/Words` |
| `src/traits/encryption.rs` | encrypt_with_rng, decrypt, decrypt_with_rng, encrypting_key | `Model/Access` |
| `src/traits/keys.rs` | n, e, size, n_params, n_bits_precision, d, primes, dp, dq, qinv, crt_values, p_params, q_params, zeroize, drop | `Model/Access`, `Model/KeyTypes`, `Model/Words` |
| `src/traits/padding.rs` | decrypt, encrypt, sign, verify | `Model/Api` |

Not modelled: timing, caches and memory (except where C70, C76, C82, C89 and C97 say so), allocation failure, the text layout produced by `core::fmt` (only which
values are handed to it), PEM armour, the binary formats chosen by a `serde` backend, 32-bit limbs, the test modules, `benches`, `tests`,
and the internals of the external crates beyond the contracts above.

## 5. Findings: where the code does not do what one would expect

Each is a theorem about the model; the cited lines show the code path. They are the reason for the `partial` entries.

* **Validation does not check what it seems to check** (`src/key.rs:467-504`). The product of the primes is computed modulo
  2^precision(n), so primes whose product is not n pass (C27_product_wraps); repeated and composite factors pass and then decrypt wrongly
  without an error (C51); `d` is not compared with n, so a validated key can encode to a document that does not decode (C36_long_exponent_fails).
  With factors that do not multiply to n the number computed can pass the fault check without being below n; decryption then reports
  InvalidPadLen (C86, example with n = 15).
* **Prime 1 panics.** The test `prime < 1` lets 1 through and the remainder modulo 0 panics: in `validate`, `from_components`, and when
  decoding a PKCS#8 or PKCS#1 document (C28_factor_one_panics, C58_prime_one_panics, C71_private_returns).
* **Other panics on construction**: `d` stored narrower than a prime, `d = 0` without primes (C28); even or zero primes, wide
  exponents in `from_p_q`/`from_primes` (C53). A key with `d` narrower than n is constructible and every in-range decryption with it panics
  (C44_narrow_exponent_panics). With a ciphertext stored as narrowly as `d`, the raw operation panics if the CRT values are cached and
  succeeds if they are not (C85_raw_private and its example).
* **`from_components(n, e, d, [])` never succeeds** (C52): the recovered primes are stored wider than `d`, so precomputation panics.
  The recovery itself is right (C30).
* **Length checks compare storage, not lengths** (`src/pkcs1v15.rs`, `src/pss.rs`): signatures with the wrong number of octets but the same limb
  count are accepted (C12), and a modulus stored with a spare limb rejects its own genuine signatures (C49, C50). `RsaPrivateKey::new` produces
  such keys for bit sizes 128j + r with 2 ≤ r ≤ 64, for example 3000 and 1600 (C66_own_signatures_rejected); encoding and decoding the key repairs it.
* **PSS**: the scheme object accepts s + n (C20); for moduli of 8j + 1 bits the surplus octet of the recovered block is ignored (C21);
  the algorithm identifier publishes the salt length modulo 256 (C41, C65); salt lengths near `usize::MAX` overflow (C43).
* **Signatures of 2^29 octets or more** overflow the `u32` bit count (C43_long_signature_panics).
* **Signature bytes** round trip only for lengths that are multiples of 8; typed signatures are 8⌈k/8⌉ octets long (C40, C60).
* **Key generation** never terminates for an even exponent (C32), and above 4096 bits never yields a key (C54_too_large).
* **Equal keys can hash differently** when stored at different precisions (C33).
* **Dropping a key** leaves both primes and the CRT coefficient in the cached Montgomery values (C35).
* **The raw public operation** truncates representatives wider than the modulus (C47); the unblinded checked private operation can
  return m ≥ n with corrupted CRT values (C48).
* **Serialisation** of signing keys loses salt length and prefix (C42).
* **OAEP**: the generic-digest and boxed paths differ in the error for an over-long label and in whether the public key is checked (C24); decoding
  refuses moduli below 11 octets; a pre-fed mask digest breaks the round trip (hypotheses of C14).
* **Blinding** cannot hide a ciphertext that shares a factor with n (C69_gcd_kept).
* **Decryption leaks the size of the plaintext integer** through a slice bound taken from its leading zeros, so two ciphertexts rejected with the
  same error can be told apart from control flow and memory accesses, under every key (C70_rejections_distinguishable, C70_oaep_first_octet).
* **Multi-prime generation from 64 bits on is unchecked** (internal function): more primes than exist loop forever, fewer than two bits per prime panics (C73).
* **Variable-time division of secrets**: `rsa_decrypt_and_check` re-encrypts the recovered plaintext through `reduce_vartime`, so `rem_vartime` is
  given the unblinded plaintext (src/algorithms/rsa.rs:207-221, called from the check), and `precompute` divides d by p-1 and q-1 with it
  (src/key.rs:427, 432). The observations of C70 and C76 record only the operand sizes of these calls.
* **PSS verification with a huge salt length**: if `hLen + s + 2 >= 2^64` any signature number in range makes it panic (with overflow checks) instead of
  being refused, because `emsa_pss_verify_pre` adds before it compares; only the holder of the verifying key chooses `s` (C87).
  Without overflow checks the sum wraps, and a genuine signature then panics at a slice bound instead (C102).
* **The blinding factor is not quite uniform**: a draw of 0 is replaced by 1 (src/algorithms/rsa.rs:162-164), so the factor 1, and with it the
  unblinded ciphertext, is twice as likely as any other; the bias is one part in the modulus (C88).
* **OAEP key documents do not record the hash functions, and tolerate the loss of the label**: the derived serialisation of
  `oaep::{EncryptingKey, DecryptingKey}` writes the hash parameters as empty markers, so a key written for one pair of hash functions is read
  without complaint for another, and a document whose `label` field is missing is read as a key without a label (C91).
* **An OAEP key document is read as a PKCS#1 v1.5 key**: unknown fields are skipped, so the scheme a stored key was meant for is not enforced;
  the reverse is refused (C91).
* **Keys with different private exponents are different to the code and the same in use**: two keys with the same modulus and public exponent but
  private exponents that differ by a multiple of the Carmichael function compare as unequal, yet no peer can tell them apart by any requests (C92).
* **Generation does not favour any usable key**: retrying discards whole turns, so the primes of a key are distributed exactly as one turn's
  draws, conditional on being usable (C95).
* **PSS signing spends randomness on requests it refuses**: the salt is drawn before the length of the digest is looked at, so a refused
  request leaves the generator in another state; encryption and decryption check lengths and ranges first (C96).
* **Comparing private keys with `==` is not constant time**: the comparison stops at the first part that differs, and how far it got (private
  exponent, or which factor) can be read off the tests made; keys whose public parts differ show nothing of their private parts (C97).
* **The unchecked private operation gives the key away after a single fault**: `hazmat::rsa_decrypt` with a corrupted `dP`, `dQ` or `qInv`
  returns a number from which anyone who knows the ciphertext computes a factor of the modulus, blinding or not; the checked operation, which
  all the schemes use, turns every such fault into an error (C100).
* **The octets of a signature depend on the machine**: `to_bytes` writes whole machine words, so for a modulus whose octets leave a remainder of one to
  four when divided by eight, a signature written on a 64-bit machine is refused by every 32-bit machine with the same key; the verifiers ask for
  the number of words of the modulus, so they also accept other numbers of leading zeros. Only `Pss::verify` is the same everywhere (C103).
* **Whether a key accepts its own signatures depends on the machine**: a modulus multiplied from two primes of `b` bits has a spare word unless `b`
  divided by the bits of a word leaves no remainder or more than half a word, and a key with a spare word refuses every signature it makes, apart
  from `Pss::verify`. Keys of 1088 bits (`b` = 544) work on a 32-bit machine and not on a 64-bit one; keys of 200 bits the other way round (C104).
  PKCS#1 v1.5 ciphertexts with leading zeros may decrypt on one machine and be a decoding error on another.
* **Which documents are keys depends on the machine**: `validate` multiplies the factors modulo the storage of the modulus, so with narrower words
  more products wrap around to it. A PKCS#8 document is exhibited that a 32-bit machine accepts and a 64-bit machine refuses; its key is no RSA key,
  and documents whose factors do multiply to the modulus are read alike everywhere (C105).
* **The same call may make a working key on one machine and a useless one on another**: `from_p_q` makes the same key of the same primes on every
  machine, but stores its modulus in as many words as the primes take together, so of two primes of 88 bits a 32-bit machine makes a key that
  accepts its own signatures and a 64-bit machine one that refuses them; and a public exponent stored wider than the primes panics (C106).
* **The same goes for generated keys**: if the prime searches of a 32-bit and a 64-bit machine find the same primes, both generate the same key in the
  same turn, but a key of `2b` bits accepts its own PKCS#1 v1.5 signatures on a given machine only if `b` leaves, divided by the bits of
  its words, no remainder or more than half a word: keys of 1088 bits work on the first and not on the second (C107).
* **Whether primes are recovered or the program panics depends on the words**: `recover_primes` panics if the modulus or the public exponent has more
  than twice the words of the private exponent. Of a modulus of 65 bits with the private exponent 1, a 64-bit machine recovers the primes and a
  32-bit one panics. On neither does `from_components` without factors ever make a key (C108).
* **Writing a key and reading it back changes it**: the document of a key depends on its numbers only, and reading stores the modulus without spare
  words. So a key `from_p_q` made of primes of 88 bits on a 64-bit machine, which refuses its own signatures (C106), is read back from its own
  document as one that has no spare word (C109).

## 6. Conformance tests

`Verif/Conformance` runs the model, inside the kernel, on the vectors of the repository's own tests: SHA-1 and SHA-256 written in Lean and
checked on their standard vectors; PKCS#1 v1.5 decryption, signatures and verification from `src/pkcs1v15.rs`; PSS from `src/pss.rs`;
the regression tests of `src/key.rs`, `src/algorithms/rsa.rs`, `src/algorithms/pad.rs`; the DER documents of `tests/examples` with `tests/pkcs1.rs`,
`tests/pkcs8.rs`, `tests/pkcs1v15.rs`; the serde tokens. They are `example`s: tests of the reading of the code, not proofs.

## 7. Properties: what is modelled and how it is proved

| id | status | property | what is modelled and how it is proved | theorems |
|---|---|---|---|---|
| C01 | proved | Raw RSA private operation inverts the public one | `rsaEncrypt`, `rsaDecrypt`, `rsaDecryptAndCheck`; Fermat modulo each prime, pairwise coprimality, Garner's recombination; blinding algebra | `C01_raw_inversion` |
| C02 | proved | CRT acceleration is unobservable | `precompute`, `clearPrecomputed`, `rsaDecrypt`; both paths compute the unique e-th root modulo n; induction over the history of cache operations | `C02_crt_unobservable` |
| C03 | proved | Blinding is unobservable | `blind`, `unblind`; r^(ed) = r modulo n for invertible r, for every generator and fuel | `C03_blinding_unobservable` |
| C04 | proved | A private-key result is never released unless it re-encrypts to the input | `rsaDecryptAndCheck` and the schemes on top; case analysis without any hypothesis on the secret part of the key | `C04_fault_safety`, `C04_signature`, `C04_typed_signature`, `C04_pkcs1v15_plaintext`, `C04_oaep_plaintext`, `C22_salt_from_rng` |
| C05 | proved | Out-of-range ciphertext representatives are refused | `rsaDecrypt`; case analysis | `C05_out_of_range` |
| C06 | proved | PKCS#1 v1.5 encryption round trip | `pkcs1v15.encrypt/decrypt`; C01, C03 and the padding inverse | `C06_encryption_round_trip` |
| C07 | proved | PKCS#1 v1.5 encryption: message limit, ciphertext shape, padding bytes | `nonZeroRandomBytes`, `pkcs1v15EncryptPad`; induction over the buffer and the fuel | `C07_encryption_shape` |
| C08 | proved | PKCS#1 v1.5 decryption accepts exactly the valid encodings, with one error for every padding fault | `pkcs1v15.decryptInner`; invariant of the index search with `i32` arithmetic | `C08_unpad_accepts_exactly`, `C08_decrypt_accepts_exactly` |
| C09 | proved | PKCS#1 v1.5 signature round trip | `pkcs1v15.sign/verify`, typed keys; C01 and unpadding after padding | `C09_signature_round_trip`, `C09_typed_round_trip` |
| C10 | proved | PKCS#1 v1.5 verification accepts only the unique full encoding (no Bleichenbacher'06 slack) | `pkcs1v15.verify`; the block is compared with the only valid block | `C10_verify_exact`, `C10_typed_verify_exact` |
| C11 | proved | A PKCS#1 v1.5 signature value is unique | as C10; injectivity of the public operation (C01) | `C11_signature_unique` |
| C12 | partial | Signatures of the wrong length are rejected | `pkcs1v15.verify`, `pss.verify`; the length test is on limb-rounded precision, so the claim is false: witnesses and an exact partial theorem | `C12_wrong_length_rejected_partial`, `C12_wrong_length_accepted`, `C12_zero_prefix_accepted` |
| C13 | proved | The PKCS#1 v1.5 digest prefix is the DER DigestInfo header | `pkcs1v15GeneratePrefix`; against a DER encoder in `Spec` | `C13_digest_info`, `C13_digest_info_only` |
| C14 | proved | OAEP round trip | `oaepEncrypt`, `oaepDecrypt`, `decryptInner`, scheme level; against RFC 8017 EME-OAEP in `Spec` | `C14_oaep_round_trip` |
| C15 | proved | OAEP decryption accepts exactly the RFC 8017 encodings, with one error for every padding fault | `decryptInner`, `oaepDecrypt`; invariant of the separator search, exact set of accepted blocks | `C15_oaep_unpad_exact`, `C15_oaep_decrypt_exact` |
| C16 | proved | OAEP binds the label | as C15; two labels with different hashes cannot both be accepted | `C16_label_binding` |
| C17 | proved | OAEP encryption: message limit and ciphertext shape | `oaepEncrypt`; decision and lengths | `C17_oaep_shape`, `C17_oaep_label_limit` |
| C18 | proved | PSS signature round trip | `emsaPssEncode`, `emsaPssVerify`, scheme level; C01 and RFC 8017 EMSA-PSS in `Spec` | `C18_pss_round_trip`, `C18_typed_round_trip` |
| C19 | proved | PSS decoding accepts exactly the RFC 8017 encodings | `emsaPssVerifyPre`, `emsaPssGetSalt`, `emsaPssVerifySalt`; equivalence with the RFC 8017 block | `C19_pss_block_exact`, `C19_pss_verify_exact`, `C19_typed_verify_exact` |
| C20 | partial | PSS verification only accepts signature representatives below n | `pss.Pss.verify`; false (s + n accepted), general theorem, witness; proved for the typed key | `C20_below_n_partial`, `C20_above_n_accepted`, `C20_congruent_accepted` |
| C21 | partial | PSS verification rejects recovered values that do not fit emLen octets | `emsaPssVerify`; false for 8j+1 bit moduli, witness; proved otherwise | `C21_overflow_partial`, `C21_overflow_accepted` |
| C22 | proved | PSS signing refuses to run without randomness, and never signs with a salt of another length | `pss.sign`; case analysis on the generator, salt length read off the block | `C22_salt_from_rng`, `C22_typed_salt_from_rng` |
| C23 | proved | MGF1 masking is RFC 8017 MGF1 and is an involution | `mgf1Xor`, `incCounter`; loop invariant over chunks, counter arithmetic | `C23_mgf1`, `C23_mgf1_involution`, `C23_mask_too_long` |
| C24 | proved | Boxed-digest and generic-digest code paths agree | generic-digest versions; equality with the boxed versions | `C24_oaep_agree`, `C24_oaep_label_error`, `C24_pss_agree` |
| C25 | proved | Integer to octet-string conversion is exact | `leftPad`, `uintToBePad`, `uintToZeroizingBePad`; positional notation | `C25_i2osp` |
| C26 | proved | Public key acceptance is exactly the documented predicate | `checkPublicWithMaxSize`, `PublicKey.new`; equivalence for every outcome | `C26_public_key_acceptance`, `C26_new_unchecked` |
| C27 | partial | A validated private key is consistent | `validate`, `fromComponents`; exact characterisation, product modulo 2^precision: witness | `C27_validate_partial`, `C27_from_components`, `C27_product_wraps` |
| C28 | partial | Key construction and validation never panic on caller-supplied or decoded components | `validate`, `fromComponents`; exact panic conditions, general negations | `C28_returns_partial`, `C28_factor_one_panics`, `C28_narrow_d_panics`, `C28_zero_d_panics` |
| C29 | proved | Keys built from primes are correct keys | `fromPQ`, `fromPrimes`; Carmichael/Euler exponents, primes pairwise coprime | `C29_from_p_q`, `C29_from_primes` |
| C30 | proved | Prime recovery is sound and complete | `recoverPrimes`; completing the square, gcd and integer square root | `C30_recovery_sound`, `C30_recovery_complete`, `C30_recovery_outcomes` |
| C31 | proved | Generated keys are well-formed and have the requested size | `generateMultiPrimeKeyWithExp`, `PrivateKey.newWithExp`; invariant of the retry loop | `C31_components`, `C31_generated_key` |
| C32 | partial | Key generation gives up or terminates for bad exponents | as C31; an even exponent is never invertible, so every iteration retries: false for every fuel | `C32_errors_partial`, `C32_even_exponent_no_key`, `C32_even_exponent_runs_forever` |
| C33 | partial | Key equality and hashing are coherent | `PublicKey.eq`, `PrivateKey.eq`, `hashItems`; equivalence relation laws, witness for differing hashes | `C33_eq_hash_partial`, `C33_eq_distinguishes`, `C33_equal_keys_hash_differently` |
| C34 | proved | Debug output of a private key reveals nothing about secret components | `debugFields`; the fields handed to the formatter are the same | `C34_debug_noninterference` |
| C35 | partial | Dropping a private key erases every secret | `PrivateKey.dropped`; which buffers are overwritten; the primes in the cached parameters survive: negation | `C35_erased_partial`, `C35_crt_values_survive` |
| C36 | partial | Private key encoding round trip | `toPkcs8Der`, `fromPkcs8Der` over a DER model; inversion of encoder by decoder, exact condition on d | `C36_private_round_trip_partial`, `C36_well_formed_round_trip`, `C36_from_p_q_round_trip`, `C36_long_exponent_fails`, `C55_refused` |
| C37 | proved | Public key encoding round trip | `toPublicKeyDer`, `fromPublicKeyDer`; inversion, injectivity of DER | `C37_public_round_trip`, `C37_encoding_injective` |
| C38 | proved | CRT values stored in an encoded private key are never trusted | `tryFromInfo`; the parsed CRT numbers are not used | `C38_crt_fields_ignored`, `C38_crt_fields_ignored_parsed` |
| C39 | proved | Only the RSA algorithm identifiers with the right parameters are accepted | `verifyAlgorithmId` and the decoders; case analysis | `C39_algorithm_identifiers`, `C39_key_decoders` |
| C40 | partial | Signature encoding round trip | `Signature.tryFrom`, `toBytes`; byte lemmas, witness | `C40_signature_round_trip_partial`, `C40_string_changes` |
| C41 | partial | The PSS algorithm identifier states the salt length actually used | `signatureAlgorithmIdentifier`; `as u8` truncation, witness | `C41_algorithm_identifier_partial`, `C41_published_salt_used_partial`, `C41_salt_truncated` |
| C42 | partial | Serialisation of signing and verifying keys preserves the object | serde of the wrapper keys; C36/C37 plus defaults reset, witnesses | `C42_private_wrappers_partial`, `C42_public_wrappers_partial`, `C42_salt_len_lost`, `C42_prefix_changes` |
| C43 | partial | Verification never panics | all verification entry points; panic-freedom by a compositional `Returns` predicate, negations for the two overflow ranges | `C43_verify_returns_partial`, `C43_long_signature_panics`, `C43_salt_overflow_panics` |
| C44 | proved | Decryption never panics | all decryption entry points; as C43 | `C44_decrypt_returns`, `C44_constructed_keys`, `C44_narrow_exponent_panics` |
| C45 | proved | RNG failures surface as errors | all entry points taking a generator; propagation of its failure | `C45_encrypt`, `C45_encrypt_first_call`, `C45_private` |
| C46 | partial | Typed keys agree with padding-scheme objects | wrapper key types; unfolding to the same algorithms, witness for PSS | `C46_pkcs1v15_agree`, `C46_pss_sign_agree`, `C46_pss_verify_agree_partial`, `C46_oaep_agree`, `C46_pss_verify_differs` |
| C47 | partial | The public operation computes m^e mod n for every message representative | `rsaEncrypt`, `reduceVartime`; false for wide m: witness | `C47_public_op_partial`, `C47_wide_witness` |
| C48 | partial | Private-key results are reduced modulo n | `rsaDecryptAndCheck`; false for corrupted CRT values: witness | `C48_reduced_partial`, `C48_unreduced_witness` |
| C49 | partial | Genuine PKCS#1 v1.5 signatures verify however the modulus is stored | `pkcs1v15.sign/verify` with spare limbs; general negation | `C49_genuine_verify_partial`, `C49_spare_limbs_reject` |
| C50 | partial | Genuine typed PSS signatures verify however the modulus is stored | typed PSS with spare limbs; general negation | `C50_genuine_verify_partial`, `C50_spare_limbs_reject` |
| C51 | partial | Key construction rejects factors that are not distinct primes | `fromComponents`; witnesses with 49 = 7*7 and 45 = 9*5 | `C51_factors_partial`, `C51_repeated_prime_accepted`, `C51_composite_accepted` |
| C52 | partial | A key can be built from n, e, d alone | `fromComponents` without primes; storage widths force the panic, general negation | `C30_recovery_complete`, `C52_never_succeeds`, `C52_genuine_key_panics` |
| C53 | partial | Building a key from primes never panics | `fromPQ`, `fromPrimes`; exact ranges, general negations | `C53_from_p_q_partial`, `C53_even_panics`, `C53_zero_panics`, `C53_wide_exponent_panics`, `C74_from_p_q_total`, `C74_from_primes_total` |
| C54 | proved | Key generation uses the first usable pair of primes | `generateMultiPrimeKeyWithExp`; relation `PairDraws` between generator states and the first usable pair | `C54_first_usable_pair`, `C54_too_large` |
| C55 | proved | The private key encoding is exactly the RFC 8017 / RFC 5208 structure | `toPkcs8Der`; equality with the DER of the RFC structure in `Spec` | `C55_private_encoding_exact`, `C55_refused` |
| C56 | proved | Public key decoding accepts strict DER only | `fromPublicKeyDer`; strictness of the DER readers | `C56_public_decoding_strict` |
| C57 | proved | Every decoded private key is validated and holds the encoded numbers | `fromPkcs8Der`; inversion of the decoder | `C57_private_decoding_sound` |
| C58 | partial | Decoding a private key never panics | `fromPkcs8Der`; `Returns` predicate through the DER readers, general negation | `C58_private_decoding_returns_partial`, `C58_prime_one_panics` |
| C59 | proved | Equal keys are interchangeable | all entry points; results depend on values only, not on storage | `C59_equal_private_keys`, `C59_equal_public_keys`, `C59_typed_equality` |
| C60 | partial | Encoded signatures have the modulus length | typed signers; length of `to_be_bytes` | `C60_signature_length_partial`, `C60_longer` |
| C61 | proved | The placeholder generator is never consulted | `DummyRng` instantiated by any generator; the `None` paths never call it | `C61_placeholder_unused` |
| C62 | proved | Signing and encryption never panic | signing and encryption entry points; `Returns` | `C62_sign_returns`, `C62_encrypt_returns` |
| C63 | proved | The serde layer is faithful | `serdect` layer over C36, C37, C40; hexadecimal inversion | `C63_byte_layer`, `C63_keys`, `C63_typed_keys`, `C63_signatures` |
| C64 | proved | Signature text and bit string forms | `Display`, `LowerHex`, `UpperHex`, bit string of signatures; against `Spec/Hex` | `C64_signature_text` |
| C65 | partial | Algorithm identifiers are the RFC encodings | `Model/AlgId`; DER of the identifiers against `Spec/Der` | `C65_pss_identifier_partial`, `C65_pkcs1v15_identifier` |
| C66 | partial | A freshly generated key works | generation composed with encryption, signing, encoding; C31, C54 and storage widths | `C66_storage`, `C66_generated_key_works_partial`, `C66_own_signatures_rejected` |
| C67 | proved | A signature binds hash function, digest and salt length | verification of one signature under two messages, hashes, salts; C10, C19 | `C67_pkcs1v15_binding`, `C67_hash_function_bound`, `C67_pkcs1v15_messages`, `C67_pss_binding`, `C67_pss_messages` |
| C68 | proved | Encryption uses its randomness injectively | `encrypt` as a function of the random bytes; injectivity of padding and of the public operation | `C68_oaep`, `C68_pkcs1v15` |
| C69 | proved | Blinding: every unit is the blinded value of exactly one draw | `blind`; r ↦ c r^e is a bijection on units, gcd with n is kept | `C69_draw`, `C69_uniform`, `C69_gcd_kept` |
| C70 | partial | Decryption reveals nothing of the plaintext but success and message length | instrumented versions of the decryption routines that also emit every branch taken, index used and length computed | `C70_same_program`, `C70_pkcs1v15_padding`, `C70_oaep_padding`, `C70_pkcs1v15_decrypt_partial`, `C70_oaep_decrypt_partial`, `C70_pkcs1v15_success`, `C70_rejections_distinguishable`, `C70_oaep_first_octet` |
| C71 | proved | PKCS#1 documents are exactly the RFC 8017 structures | `Model/Pkcs1`; reduction to C55–C58 | `C71_same_as_wrapped`, `C71_public_exact`, `C71_public_round_trip`, `C71_private_encoding_exact`, `C71_private_decoding_sound`, `C71_private_round_trip`, `C71_private_returns` |
| C72 | proved | Accessors, conversions, random constructors and printed forms agree with the key | `Model/Access`; C27, C31, C66 and case analysis | `C72_accessors`, `C72_random`, `C72_drawn_keys_sign`, `C72_conversions`, `C72_debug`, `C72_display` |
| C73 | proved | The floating-point size check of key generation decides as the real formula does | `tooFewPrimes` with floating point rounding as an arbitrary bounded relative error | `C73_rounding_irrelevant`, `C73_real_formula`, `C73_refused`, `C73_unchecked_runs_forever`, `C73_unchecked_panics` |
| C74 | proved | Every key-building error has one exact cause | exact causes over values and storage widths; the causes are written out in Spec/KeyErrors.lean without reference to the model's functions | `C74_validate`, `C74_precompute`, `C74_from_components`, `C74_from_components_no_factors`, `C74_from_p_q`, `C74_from_primes`, `C74_from_p_q_total`, `C74_from_primes_total` |
| C75 | proved | Private key decoding has an exact verdict on every input | every byte string; relative to the assumed rendering of the `pkcs8`/`pkcs1`/`der` crates | `C75_private_verdict`, `C75_pkcs1_verdict`, `C75_pkcs8_verdict`, `C75_one_error` |
| C76 | proved | The private operation, signing and encryption branch only on public data | the same observations for the private operation itself, signing and encryption: two keys stored alike and two inputs, equal traces iff the blinding draws turn out alike | `C76_same_program`, `C76_private_operation`, `C76_same_key`, `C76_pkcs1v15_sign`, `C76_pss_sign_with_salt`, `C76_pss_sign`, `C76_pkcs1v15_encrypt`, `C76_oaep_encrypt` |
| C77 | proved | Key encoding has an exact verdict for every key | every outcome of the encoders on every key, with the limit of the DER writer derived for the nested structure | `C77_public_verdict`, `C77_private_verdict`, `C77_serde` |
| C78 | proved | Encryption has an exact outcome for every input | the specification relation has an outcome for every input and is the graph of the function; the generator state is part of the outcome | `C78_pkcs1v15`, `C78_oaep` |
| C79 | proved | Decryption has an exact outcome for every input | the same for decryption; needs a well-formed private key (C69–C71 treat others) | `C79_pkcs1v15`, `C79_oaep`, `C79_oaep_typed` |
| C80 | proved | Signing has an exact outcome for every input | the same for signing, scheme objects and typed keys | `C80_pkcs1v15`, `C80_pss`, `C80_pkcs1v15_typed`, `C80_pss_typed` |
| C81 | proved | Verification has an exact outcome for every signature string of every length | the same for verification through the scheme objects; the typed verifier is exact in C10 and C19 | `C81_pkcs1v15`, `C81_pss` |
| C82 | proved | Exact observation sequences | exact lists of observations; for signing, encryption and the raw private operation whenever they return a result, for decryption under well-formed keys with usable blinding, accepted or rejected, at least 11 octets of modulus | `C82_pkcs1v15_padding`, `C82_mgf1`, `C82_oaep_padding`, `C82_conversion`, `C82_private_operation`, `C82_pkcs1v15_decrypt`, `C82_oaep_decrypt`, `C82_pkcs1v15_sign`, `C82_pss_sign_with_salt`, `C82_pss_sign`, `C82_pkcs1v15_encrypt`, `C82_oaep_encrypt` |
| C83 | proved | Key generation has an exact outcome for every request | the shares (total + i)/nprimes are derived from the code's successive divisions; relation shown to be the graph of the function | `C83_components`, `C83_new_with_exp` |
| C84 | proved | Every byte string has one fixed outcome as a key document | total: every byte string falls in one case; the grammar is independent of the model's parser | `C84_pkcs8`, `C84_pkcs1`, `C84_public`, `C84_typed`, `C84_serde` |
| C85 | proved | The raw private operation is exact on keys that need not be correct, at every width | `rsaDecrypt` and `rsaDecryptAndCheck`, with and without blinding; keys need not be correct, cached values must belong to the factors | `C85_raw_private`, `C85_decrypt`, `C85_checked` |
| C86 | proved | Decryption and signing are exact on keys that need not be correct | all decryption and signing operations over `RawChecked` (C85), keys need not be correct | `C86_pkcs1v15_decrypt`, `C86_oaep_decrypt`, `C86_oaep_decrypt_typed`, `C86_pkcs1v15_sign`, `C86_pss_sign`, `C86_pkcs1v15_sign_typed`, `C86_pss_sign_typed`, `C86_in_range` |
| C87 | proved | Exact outcome for every signature string, object, document and salt length | Exact outcome of reading a signature from any octet string or serde document, of verifying any signature object under any coherent key for every salt length, and of the bit string form. The salt length overflow is the panic of a build with overflow checks. | `C87_parse`, `C87_pkcs1v15`, `C87_pss`, `C87_pss_string`, `C87_serde`, `C87_bitstring` |
| C88 | proved | Padding, seeds and salts are uniformly distributed; the blinded value is, but for one value | Counts of tapes (`Spec/Uniform.lean`) per outcome. Whether the generator's tapes are uniform, and what `random_mod` does with the generator, is outside the model; PSS is counted without blinding. | `C88_padding`, `C88_pkcs1v15`, `C88_oaep`, `C88_pss`, `C88_blinding` |
| C89 | proved | Building and generating a private key shows sizes, and where it stopped | Traces of sizes (`Spec/LeakKey.lean`) for `Model/LeakKey.lean`, which records observations as `Model/Leak.lean` does. Calls such as `rem_vartime`, `inv_mod`, `gcd` and the prime search are one event each: what they do inside is outside the model, so this says nothing about their timing. | `C89_same_program`, `C89_validate`, `C89_precompute`, `C89_recover`, `C89_build`, `C89_alike`, `C89_components`, `C89_generate` |
| C90 | proved | A key survives any sequence of writing, reading, taking apart and putting together | Whole journeys of a key through any sequence of formats and rebuilds | `C90_journey`, `C90_same_numbers`, `C90_never_stuck`, `C90_one_form`, `C90_same_output`, `C90_ciphertexts`, `C90_signatures`, `C90_portable_sources` |
| C91 | proved | The struct documents of the encryption keys: what is accepted, what is kept, what is not recorded | `Model/SerdeStruct.lean` writes out what serde's derive macro generates (an assumption about serde): fields by name, unknown names skipped, repeated or missing ones refused, a missing `Option` is `None`. Errors are the one serde error. By position, what follows the last field is the format's business | `C91_accepts_exactly`, `C91_round_trip`, `C91_positional`, `C91_positional_exactly`, `C91_verdict`, `C91_document_determines`, `C91_still_decrypts`, `C91_hash_not_bound`, `C91_label_not_required`, `C91_schemes`, `C91_secret_not_public` |
| C92 | proved | A key in service answers as a party would that knows only the numbers | Histories of a service (`Spec/Session.lean`) against those of an ideal party that answers by the relations of `Spec/Outcome.lean`. About answers only, not timing. A generator per turn is given; how the application shares one generator over turns is its own affair | `C92_turn`, `C92_simulated`, `C92_same_public_same_service`, `C92_history_determined`, `C92_blinding_unseen`, `C92_public_asks`, `C92_opened_as_sealed`, `C92_checked_as_signed`, `C92_always_answered`, `C92_spare_limbs_seen` |
| C93 | proved | Watching every private operation does not tell two private keys behind one public key apart | Equality of answers and traces (`Spec/Twins.lean`) for all keys behind one public key. Traces as in `Model/Leak.lean`: a call into the bignum crate is one event with the sizes of its operands | `C93_operations`, `C93_sessions`, `C93_watch_answers`, `C93_twins`, `C93_storage_seen` |
| C94 | proved | The loops that draw again end with probability one, after a known number of draws | The loops of `rerollByte`/`fixZeros` and `blindLoop` run on tapes; failure is characterised by counting usable entries (induction on the tape), counted by `Set.ncard`, and the limits and means come from Mathlib's geometric and binomial series. | `C94_padding`, `C94_padding_fails`, `C94_padding_ends`, `C94_padding_redraws`, `C94_padding_law`, `C94_blinding`, `C94_wasted`, `C94_blinding_ends`, `C94_blinding_redraws`, `C94_blinding_law`, `C94_pkcs1v15`, `C94_operations`, `C94_pss` |
| C95 | proved | Which keys generation gives, with which probability | The search is any function of fresh random choices read from a tape (`Spec/Draws.lean`); how crypto-primes turns its randomness into primes is not modelled. Counts by splitting a tape into turns, from the exact outcome of C83; limits and means from the geometric series. | `C95_searching`, `C95_found`, `C95_turns`, `C95_law`, `C95_ends`, `C95_hits`, `C95_key`, `C95_key_law`, `C95_equally_likely` |
| C96 | proved | Operations use a generator only by calling it, and sharing one keeps requests independent | `Model/Gen.lean` repeats the operations with the generator as `&mut`, so that its state is known after errors too; `C96_same` ties it to the rest. Closure of "only calls" under the steps operations are made of, and the same operations as trees of calls for the probabilities (`Spec/Generator.lean`: sum over scripts). | `C96_same`, `C96_same_state`, `C96_api`, `C96_only_calls`, `C96_unblinded`, `C96_in_turn`, `C96_independent`, `C96_product`, `C96_total`, `C96_refused`, `C96_pss_spends` |
| C97 | proved | What comparing private keys with == shows | `Model/LeakEq.lean` repeats `==` with observations; the trace is compared with the one written down in `Spec/LeakEq.lean` by cases on which parts agree, and induction on the factors. | `C97_same_program`, `C97_trace`, `C97_public_differs`, `C97_reads` |
| C98 | proved | With a perfect generator, the exact probability of every outcome | `Proof/Chance.lean` computes means over the scripts of a perfect generator along the trees of `Proof/AskTree.lean`: octet by octet for the padding, draw by draw for blinding. Which padding, seed or salt an outcome comes from is decided by the injectivity lemmas of `Props/Hiding.lean` (C68) and of the PSS encoding. | `C98_pkcs1v15`, `C98_pkcs1v15_endless`, `C98_oaep`, `C98_private`, `C98_private_ok`, `C98_pss`, `C98_untouched`, `C98_limits` |
| C99 | proved | How many strings are accepted | The private and the public operation permute the numbers below the modulus (`perm_ncard`), so the strings accepted are as many as the blocks accepted; those are counted by the injectivity of the encodings (C67, C68). | `C99_pkcs1v15_message`, `C99_pkcs1v15`, `C99_oaep_message`, `C99_oaep`, `C99_oaep_typed`, `C99_few`, `C99_pkcs1v15_signatures`, `C99_pss_signatures`, `C99_pss_none`, `C99_pss_typed` |
| C100 | proved | A fault in the cached CRT values gives away a factor, and never leaves the checked operation | The result is right modulo the prime whose cached values are right, so the difference of its public power and the ciphertext is divisible by that prime and not by the other (`right_or_q`, `right_or_p`); the check accepts only the one root there is (`wf_inj`). Counts: solutions of x^m = 1 in the cyclic group of units modulo p. | `C100_value`, `C100_gives_q`, `C100_gives_p`, `C100_checked`, `C100_pkcs1v15`, `C100_pss`, `C100_oaep`, `C100_how_often`, `C100_at_most_half` |
| C101 | proved | What the algebra of the raw operations gives away, and what the encodings make of it | Uniqueness of roots (`wf_inj`) for the private side; fixed points by the count of C100 in each prime field and the Chinese remainder theorem (`card_fixed_list`); cycles because only exponents that are 1 modulo every p-1 fix everything; encodings from C08, C10 and C19. | `C101_public_product`, `C101_private_product`, `C101_borrowed`, `C101_unconcealed`, `C101_at_least`, `C101_always`, `C101_cycle`, `C101_cycle_exists`, `C101_cycling`, `C101_jacobi`, `C101_signature_product`, `C101_trivial_signatures`, `C101_trivial_ciphertexts`, `C101_trivial_pss` |
| C102 | proved | A build without overflow checks and debug assertions does the same, and where the checks would stop it accepts nothing | `Model/Release.lean` repeats the functions with wrapping arithmetic and without `debug_assert!`; `SameUnlessStopped` is closed under sequencing, so each pair is compared call by call (Proof/Release.lean); with the theorems that nothing panics (C43, C44, C62) this is equality. The assertions of `precompute` are shown to hold for all numbers. | `C102_pkcs1v15`, `C102_pss`, `C102_oaep`, `C102_generated`, `C102_keys`, `C102_verify`, `C102_private`, `C102_encrypt`, `C102_long_signature`, `C102_salt_overflow`, `C102_salt_overflow_genuine`, `C102_prefix` |
| C103 | proved | What the size of a machine word changes in signature verification | `Model/Words.lean` has the octets of a machine word as a parameter; with eight it is the rest of the model (`C103_word8`), and for any other every verifier comes down to one outcome that depends on numbers only, behind a comparison of word counts (Proof/Words.lean). | `C103_word8`, `C103_pkcs1v15`, `C103_pss`, `C103_typed`, `C103_wider`, `C103_lengths`, `C103_to_bytes`, `C103_interop`, `C103_refused`, `C103_ciphertext` |
| C104 | proved | What the size of a machine word changes in signing and decryption | `Model/WordsPrivate.lean` repeats the private operations with the octets of a word as a parameter; Proof/WordsPrivate.lean brings parsing, the private operation and writing out to one closed form (`privateBytes_ok`) in which only the largest readable length depends on the word, and every comparison of two machines is two uses of it. | `C104_word8`, `C104_word8_schemes`, `C104_word8_precompute`, `C104_private`, `C104_precompute`, `C104_same`, `C104_check`, `C104_pkcs1v15`, `C104_pss`, `C104_product`, `C104_own`, `C104_long_ciphertext` |
| C105 | proved | What the size of a machine word changes in accepting keys and encrypting | `Model/WordsKey.lean` repeats validation, the reading of documents and encryption with the octets of a word as a parameter; Proof/WordsKey.lean characterises acceptance exactly (`validate_ok_iff`, `readKey_validate`) and shows that what is left to differ between machines is the modulus of the product. | `C105_word8`, `C105_word8_encrypt`, `C105_validate`, `C105_public`, `C105_private`, `C105_everywhere`, `C105_encrypt`, `C105_wrapped` |
| C106 | proved | What the size of a machine word changes in building keys from primes | `Model/WordsPrimes.lean` repeats the private exponents, `compute_modulus`, `from_p_q` and `from_primes` with the octets of a word as a parameter; Proof/WordsPrimes.lean characterises each exponent by its inequality and congruence (`carmichael_spec`, `euler_spec`), and `fromFactors_prime` turns the two into a key. | `C106_word8`, `C106_from_p_q`, `C106_from_primes`, `C106_same_p_q`, `C106_same_primes`, `C106_own` |
| C107 | proved | What the size of a machine word changes in key generation | `Model/WordsGenerate.lean` repeats key generation with the octets of a word as a parameter; Proof/WordsGenerate.lean runs two machines side by side (`WordsSameResult_bind`, `generateLoop_same`), and `words_generated` says what a finished search has found. | `C107_word8`, `C107_key`, `C107_components`, `C107_same`, `C107_own` |
| C108 | proved | What the size of a machine word changes in the recovery of primes | `Model/WordsRecover.lean` repeats `recover_primes` with the octets of a word as a parameter; Proof/WordsRecover.lean follows the widths through it (`recoverPrimes_eq`) and ends in `recoverNat`, the computation on numbers that C30 is about. | `C108_word8`, `C108_word8_key`, `C108_sound`, `C108_complete`, `C108_outcomes`, `C108_never_succeeds`, `C108_same`, `C108_differ` |
| C109 | proved | What the size of a machine word changes in the writing of keys | `Model/WordsWrite.lean` repeats the writing of keys with the octets of a word as a parameter; Proof/WordsWrite.lean shows the documents to depend on the numbers only (`toPublicKeyDer_eq`, `toPkcs8Der_eq`), and C105 says how other machines read them. | `C109_word8`, `C109_public`, `C109_private`, `C109_from_p_q`, `C109_wide_panics` |

## 8. Axioms per theorem

From `#print axioms` on every theorem of `MANIFEST.json`. No other axiom occurs.

* no axioms (3 theorems): C34_debug_noninterference, C40_string_changes, C72_debug.

* `propext` (12 theorems): C05_out_of_range, C102_generated, C103_refused, C104_word8_precompute, C33_equal_keys_hash_differently, C35_crt_values_survive, C35_erased_partial, C42_prefix_changes, C47_wide_witness, C48_unreduced_witness, C51_composite_accepted, C51_repeated_prime_accepted.

* `Quot.sound`, `propext` (44 theorems): C102_long_signature, C102_oaep, C102_pkcs1v15, C102_pss, C104_long_ciphertext, C105_word8, C105_wrapped, C106_word8, C108_word8, C108_word8_key, C109_wide_panics, C109_word8, C12_wrong_length_accepted, C13_digest_info, C17_oaep_label_limit, C23_mask_too_long, C24_oaep_label_error, C26_new_unchecked, C28_narrow_d_panics, C33_eq_distinguishes, C33_eq_hash_partial, C38_crt_fields_ignored_parsed, C39_algorithm_identifiers, C39_key_decoders, C42_salt_len_lost, C43_long_signature_panics, C46_pkcs1v15_agree, C53_zero_panics, C59_typed_equality, C61_placeholder_unused, C65_pkcs1v15_identifier, C70_same_program, C72_conversions, C75_one_error, C76_same_program, C77_serde, C82_pss_sign, C91_hash_not_bound, C91_label_not_required, C93_twins, C93_watch_answers, C96_api, C96_same, C96_same_state.

* `Classical.choice`, `Quot.sound`, `propext` (387 theorems): C01_raw_inversion, C02_crt_unobservable, C03_blinding_unobservable, C04_fault_safety, C04_oaep_plaintext, C04_pkcs1v15_plaintext, C04_signature, C04_typed_signature, C06_encryption_round_trip, C07_encryption_shape, C08_decrypt_accepts_exactly, C08_unpad_accepts_exactly, C09_signature_round_trip, C09_typed_round_trip, C100_at_most_half, C100_checked, C100_gives_p, C100_gives_q, C100_how_often, C100_oaep, C100_pkcs1v15, C100_pss, C100_value, C101_always, C101_at_least, C101_borrowed, C101_cycle, C101_cycle_exists, C101_cycling, C101_jacobi, C101_private_product, C101_public_product, C101_signature_product, C101_trivial_ciphertexts, C101_trivial_pss, C101_trivial_signatures, C101_unconcealed, C102_encrypt, C102_keys, C102_prefix, C102_private, C102_salt_overflow, C102_salt_overflow_genuine, C102_verify, C103_ciphertext, C103_interop, C103_lengths, C103_pkcs1v15, C103_pss, C103_to_bytes, C103_typed, C103_wider, C103_word8, C104_check, C104_own, C104_pkcs1v15, C104_precompute, C104_private, C104_product, C104_pss, C104_same, C104_word8, C104_word8_schemes, C105_encrypt, C105_everywhere, C105_private, C105_public, C105_validate, C105_word8_encrypt, C106_from_p_q, C106_from_primes, C106_own, C106_same_p_q, C106_same_primes, C107_components, C107_key, C107_own, C107_same, C107_word8, C108_complete, C108_differ, C108_never_succeeds, C108_outcomes, C108_same, C108_sound, C109_from_p_q, C109_private, C109_public, C10_typed_verify_exact, C10_verify_exact, C11_signature_unique, C12_wrong_length_rejected_partial, C12_zero_prefix_accepted, C13_digest_info_only, C14_oaep_round_trip, C15_oaep_decrypt_exact, C15_oaep_unpad_exact, C16_label_binding, C17_oaep_shape, C18_pss_round_trip, C18_typed_round_trip, C19_pss_block_exact, C19_pss_verify_exact, C19_typed_verify_exact, C20_above_n_accepted, C20_below_n_partial, C20_congruent_accepted, C21_overflow_accepted, C21_overflow_partial, C22_salt_from_rng, C22_typed_salt_from_rng, C23_mgf1, C23_mgf1_involution, C24_oaep_agree, C24_pss_agree, C25_i2osp, C26_public_key_acceptance, C27_from_components, C27_product_wraps, C27_validate_partial, C28_factor_one_panics, C28_returns_partial, C28_zero_d_panics, C29_from_p_q, C29_from_primes, C30_recovery_complete, C30_recovery_outcomes, C30_recovery_sound, C31_components, C31_generated_key, C32_errors_partial, C32_even_exponent_no_key, C32_even_exponent_runs_forever, C36_from_p_q_round_trip, C36_long_exponent_fails, C36_private_round_trip_partial, C36_well_formed_round_trip, C37_encoding_injective, C37_public_round_trip, C38_crt_fields_ignored, C40_signature_round_trip_partial, C41_algorithm_identifier_partial, C41_published_salt_used_partial, C41_salt_truncated, C42_private_wrappers_partial, C42_public_wrappers_partial, C43_salt_overflow_panics, C43_verify_returns_partial, C44_constructed_keys, C44_decrypt_returns, C44_narrow_exponent_panics, C45_encrypt, C45_encrypt_first_call, C45_private, C46_oaep_agree, C46_pss_sign_agree, C46_pss_verify_agree_partial, C46_pss_verify_differs, C47_public_op_partial, C48_reduced_partial, C49_genuine_verify_partial, C49_spare_limbs_reject, C50_genuine_verify_partial, C50_spare_limbs_reject, C51_factors_partial, C52_genuine_key_panics, C52_never_succeeds, C53_even_panics, C53_from_p_q_partial, C53_wide_exponent_panics, C54_first_usable_pair, C54_too_large, C55_private_encoding_exact, C55_refused, C56_public_decoding_strict, C57_private_decoding_sound, C58_prime_one_panics, C58_private_decoding_returns_partial, C59_equal_private_keys, C59_equal_public_keys, C60_longer, C60_signature_length_partial, C62_encrypt_returns, C62_sign_returns, C63_byte_layer, C63_keys, C63_signatures, C63_typed_keys, C64_signature_text, C65_pss_identifier_partial, C66_generated_key_works_partial, C66_own_signatures_rejected, C66_storage, C67_hash_function_bound, C67_pkcs1v15_binding, C67_pkcs1v15_messages, C67_pss_binding, C67_pss_messages, C68_oaep, C68_pkcs1v15, C69_draw, C69_gcd_kept, C69_uniform, C70_oaep_decrypt_partial, C70_oaep_first_octet, C70_oaep_padding, C70_pkcs1v15_decrypt_partial, C70_pkcs1v15_padding, C70_pkcs1v15_success, C70_rejections_distinguishable, C71_private_decoding_sound, C71_private_encoding_exact, C71_private_returns, C71_private_round_trip, C71_public_exact, C71_public_round_trip, C71_same_as_wrapped, C72_accessors, C72_display, C72_drawn_keys_sign, C72_random, C73_real_formula, C73_refused, C73_rounding_irrelevant, C73_unchecked_panics, C73_unchecked_runs_forever, C74_from_components, C74_from_components_no_factors, C74_from_p_q, C74_from_p_q_total, C74_from_primes, C74_from_primes_total, C74_precompute, C74_validate, C75_pkcs1_verdict, C75_pkcs8_verdict, C75_private_verdict, C76_oaep_encrypt, C76_pkcs1v15_encrypt, C76_pkcs1v15_sign, C76_private_operation, C76_pss_sign, C76_pss_sign_with_salt, C76_same_key, C77_private_verdict, C77_public_verdict, C78_oaep, C78_pkcs1v15, C79_oaep, C79_oaep_typed, C79_pkcs1v15, C80_pkcs1v15, C80_pkcs1v15_typed, C80_pss, C80_pss_typed, C81_pkcs1v15, C81_pss, C82_conversion, C82_mgf1, C82_oaep_decrypt, C82_oaep_encrypt, C82_oaep_padding, C82_pkcs1v15_decrypt, C82_pkcs1v15_encrypt, C82_pkcs1v15_padding, C82_pkcs1v15_sign, C82_private_operation, C82_pss_sign_with_salt, C83_components, C83_new_with_exp, C84_pkcs1, C84_pkcs8, C84_public, C84_serde, C84_typed, C85_checked, C85_decrypt, C85_raw_private, C86_in_range, C86_oaep_decrypt, C86_oaep_decrypt_typed, C86_pkcs1v15_decrypt, C86_pkcs1v15_sign, C86_pkcs1v15_sign_typed, C86_pss_sign, C86_pss_sign_typed, C87_bitstring, C87_parse, C87_pkcs1v15, C87_pss, C87_pss_string, C87_serde, C88_blinding, C88_oaep, C88_padding, C88_pkcs1v15, C88_pss, C89_alike, C89_build, C89_components, C89_generate, C89_precompute, C89_recover, C89_same_program, C89_validate, C90_ciphertexts, C90_journey, C90_never_stuck, C90_one_form, C90_portable_sources, C90_same_numbers, C90_same_output, C90_signatures, C91_accepts_exactly, C91_document_determines, C91_positional, C91_positional_exactly, C91_round_trip, C91_schemes, C91_secret_not_public, C91_still_decrypts, C91_verdict, C92_always_answered, C92_blinding_unseen, C92_checked_as_signed, C92_history_determined, C92_opened_as_sealed, C92_public_asks, C92_same_public_same_service, C92_simulated, C92_spare_limbs_seen, C92_turn, C93_operations, C93_sessions, C93_storage_seen, C94_blinding, C94_blinding_ends, C94_blinding_law, C94_blinding_redraws, C94_operations, C94_padding, C94_padding_ends, C94_padding_fails, C94_padding_law, C94_padding_redraws, C94_pkcs1v15, C94_pss, C94_wasted, C95_ends, C95_equally_likely, C95_found, C95_hits, C95_key, C95_key_law, C95_law, C95_searching, C95_turns, C96_in_turn, C96_independent, C96_only_calls, C96_product, C96_pss_spends, C96_refused, C96_total, C96_unblinded, C97_public_differs, C97_reads, C97_same_program, C97_trace, C98_limits, C98_oaep, C98_pkcs1v15, C98_pkcs1v15_endless, C98_private, C98_private_ok, C98_pss, C98_untouched, C99_few, C99_oaep, C99_oaep_message, C99_oaep_typed, C99_pkcs1v15, C99_pkcs1v15_message, C99_pkcs1v15_signatures, C99_pss_none, C99_pss_signatures, C99_pss_typed.

## 9. Wrong programs

`seeded/LOG.jsonl` records edits of the model made in a scratch copy, one per line: the definition, the edit, the claim it breaks, the theorems
whose proofs failed, those whose statement is false of the edited program, and the theorems that were tightened because of it. The first 59 lines
and those named `h...` were made by hand. The others come from edits generated by a script and carry a `status`:

* `refuted`: a concrete instance of the property, written by hand after its theorem (`seeded/bank.lean.txt`), evaluates to false in the edited
  copy. It is run by Lean's interpreter. It is a test result, not a kernel-checked proof of the negation, and that the instance follows from the
  theorem was not itself proved.
* `proof-broken`: proofs failed, but no counterexample was found. A proof can fail although the statement is still true, so these do not show
  that a claim is false. `proof-broken-later` is the same, on a re-run, for an edit for which no failure was recorded at first. The harness of
  the first run could compile modules out of dependency order and so miss failures; it also ran before the later theorems existed. Which of the
  two explains a given edit was not determined, so `theorems_tightened` is empty for them.
* `equivalent`: no proof failed at first, and reading the code shows the edit changes nothing reachable; the reason is given. Read, not proved.
* `closed`: no proof failed at first, the gap was real, and a theorem was added; on a re-run it (or a lemma it rests on) and a concrete example
  beside it fail.
* `unresolved`: nothing failed and the edit is not shown harmless, or its proofs were not run. These are open.

Edits that do not compile or crash the run are left out. Some earlier verdicts of equivalence were wrong and have been withdrawn, for example
for the guard of `shorten`, which a key with `d` narrower than `n` reaches (C85).
