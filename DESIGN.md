# Formal model of jonasblixt/bpak in Lean 4 — design

## Trusted base

* **Lean 4.33.0's kernel.** Every theorem is accepted by it; nothing rests on compiled code. `decide +kernel`, used for closed concrete
  witnesses and for finite tables (the 256 CRC entries, the error codes, the id names), is evaluation by the kernel itself, not by compiled code.
* **Axioms**: only Lean's three standard ones, `propext`, `Classical.choice` and `Quot.sound`. Which theorem uses which is listed at the
  end of this file. No axiom is declared in /verif.
* **The model is a faithful reading of the C code.** This is not proved: it was made by hand, function by function, and every definition
  in `lean/Verif/Model` cites the file and lines it models and says where it simplifies. What is modelled and what is not is listed below.
* **The specifications** in `lean/Verif/Spec` and the theorem statements in `lean/Verif/Props` mean what properties.jsonl says in English.
* **The machine the code runs on**: 64-bit, little-endian, two's complement, `int` 32 bits, `size_t`/`off_t`/`long` 64 bits (x86-64 or AArch64 Linux), ASCII.

## Layout

* `lean/Verif/Model/*.lean` — the code. Definitions only (and a few rewriting lemmas on files).
* `lean/Verif/Spec/*.lean` — small specifications which do not use the model's control flow: CRC as polynomial division, entries and
  histories, the patch record semantics, the heatshrink bit grammar, the Merkle tree as a recursive function, the package as a list of
  (id, content), sessions with the command line tool, Python programs.
* `lean/Verif/Proof/*.lean` — lemmas.
* `lean/Verif/Props/*.lean` — the theorems `Cnn_...` named in MANIFEST.json. Beside each an `example` on concrete, non-trivial data which
  meets the hypotheses.
* `seeded/LOG.jsonl` — wrong programs tried against the theorems (item 5 of the task).

Naming: `..._partial` proves part of the property and its comment says what is missing; `..._is_false` proves that the property, or a
natural stronger reading of it, does not hold of the code. In nearly all partial properties the missing part is exactly what `_is_false` refutes:
the code is wrong there, and the partial theorem has the weakest hypotheses found under which it is right.

## Modelling conventions

* Bytes and fixed-width C integers are `BitVec 8/16/32/64`, so wrap-around is that of C. `size_t`/`off_t` values are `Nat`/`Int` where they
  cannot wrap for files below 2^63 bytes; where the width matters (16-bit metadata sizes, 32-bit match lengths, 64-bit sums of part sizes
  in a hostile header) it is modelled.
* A C struct is a structure with the same fields; arrays are lists with an explicit length predicate (`Header.WF`), which is a theorem for every header read or built.
* Functions that mutate through pointers return the new value; result codes are the C enum (`Err`).
* **Undefined behaviour** (access out of bounds, NULL dereference, use of uninitialised memory, overflow of a stack buffer) is a separate
  outcome (`Out.ub`, `Drv.ub`, ...), never a default value, so that a theorem that a call returns says that none happens.
* Loops are structural recursion. A loop that may run for ever takes fuel and has an outcome "out of fuel"; "terminates" is: from some
  fuel on the result is not that one; "hangs" is: for every fuel it is.
* A file is a byte list. `fwrite` beyond the end fills with zeros; reads at the end are short. A crash point is a prefix of the sequence of writes (C57, C62, C67). In most properties writes succeed; `Model/Disk.lean` is the
  same code on a disk that can be full, with the write errors it tests for (C106, C121) and those only noticed later (C107), and `C106_with_room` ties the two together.
* The command line tool as a whole (C108–C114) is a function of the arguments and a map from paths to contents. `getopt_long` of the GNU C library is modelled (Model/Getopt.lean: permutation, clusters, abbreviations, `--`; `POSIXLY_CORRECT`
  unset; C119 proves it against a grammar); different path strings are different files, all of them readable and writable.
* What is acquired and released (streams, memory, mappings, key contexts: C116–C118) is a second view of the same functions, Model/Resource.lean: the data is left out, every call may
  end in any way, memory may run out, and the outcome is the trace of acquisitions, uses and releases.
* Functions installed by the application (C120) are a third view, Model/Hooks.lean: an oracle answers each call from the history of calls; the log of the calls is part of the outcome; uninitialised arrays are arbitrary.
* External code is a parameter of the theorems: the hash is any function with the right digest lengths; a signature scheme is any pair of
  functions (with the law "what sign makes, verify accepts" only where a theorem needs it); callbacks are functions; liblzma is any
  library keeping the promises listed in Spec/Lzma.lean (C38, C99, C100); every mbedtls pk layer keeping those in Spec/Crypto.lean (C101, C102); "unless the hash
  has a collision" is an explicit pair of different inputs with equal digests in the conclusion.

## What is modelled

| file | modelled | not modelled |
|------|----------|--------------|
| lib/bpak.c | everything | `bpak_printf` (logging) |
| lib/bpakcrc.c, lib/id.c, lib/keystore.c, lib/mem.c, lib/utils.c | everything | – |
| lib/bsdiff.c | matching, search, integer coding, the main loop, the construction of the array, heatshrink and LZMA compression; the writes also through a callback that fails (C128, Model/DiffIo.lean) | liblzma itself (a parameter, see Spec/Lzma.lean) |
| lib/sais.c | everything: all passes, the placement of counters and buckets in free space, the recursion, the allocations | the width of `int64_t` (unbounded in the model) |
| lib/bspatch.c | all of the decoder, plain, heatshrink and LZMA; also over callbacks that fail (C126, Model/PatchIo.lean) | liblzma itself |
| lib/heatshrink/*.c | both state machines, as configured (`HEATSHRINK_USE_INDEX` 0) | the index variant, which is compiled out |
| lib/merkle.c, lib/verify.c | everything but the getter `bpak_merkle_get_size` | – |
| lib/transport_encode.c, lib/transport_decode.c | everything; decoding also over callbacks that fail (C127, Model/DecodeIo.lean) | – |
| lib/pkg.c, pkg_create.c, pkg_sign.c, pkg_verify.c, keystore_load_from_file.c | everything (failing `malloc` in Model/Resource.lean only) | failing writes of encoded transport packages |
| lib/crypto.c | hash and sign/verify dispatch, as calls of the parameter functions, or of the built-in ones (C101, C102); installing functions (C120, Model/Hooks.lean) | – |
| lib/mbedtls_wrapper.c | hash functions' codes and digest lengths; loading and parsing of keys, signing, verifying (C101, C102), as built with mbedtls 3 | mbedtls' pk layer (parameter `Mbed`), the mbedtls 2 variants |
| src/add.c, compare.c, create.c, delete.c, extract.c, set.c, show.c, sign.c | everything: option tables, option loops, what follows (C108–C114) | usage texts and what `-v` prints, the exact layout of printed rows (rows are values) |
| src/transport.c | everything, as above | an output path that is also the origin (the input: C125, Model/SamePath.lean) |
| src/generate.c | both generators; the C text as the values of its initialisers | the characters of the text |
| src/main.c | `main`, from the arguments to the exit status | `print_usage` texts |
| src/misc.c | `bpak_get_id_for_name_or_ref` | the usage texts |
| python/package.c, meta.c, part.c | all methods and attributes | reference counting of the values it returns, `repr`, `as_uuid`, attribute deletion |
| python/python_wrapper.c | `transport_encode`, `transport_decode` | `id`, module set-up |
| ext/uuid | parse, unparse, pack, unpack | `uuid_clear`, `uuid_copy`, `uuid_compare`, `uuid_is_null` |

Not expressible in this model: timing, mbedtls' arithmetic, the kernel's file system, crash points inside libc's buffering, two processes
writing one package at a time.

## Where the code and a natural expectation disagree

Each is a theorem (`_is_false` unless named otherwise), most of them for *every* package or input of the described shape.

* Metadata: a refused `bpak_add_meta` leaves a broken entry (C07); deletion cuts later, longer entries (C08) and writes outside a full table (C09).
* `bpak_bin2hex` writes one byte too many (C18); header hash into a too small buffer reports success (C17).
* A disk that is full: after a failed add the part stays in the header in memory (C106); late errors are dropped by `fclose` and `fflush`, so a lost header (C107) or a lost extracted file (C121) is reported as success.
* bsdiff's suffix array is one entry short (C23, `C23_suffix_array_too_short`; C105, `C105_reads_past_end`: every new file beginning with a byte above all of the origin's); bspatch takes negative lengths (C45) and does not notice truncation (C46).
* Merkle sizes above 8 GiB are computed, but cannot be built (C27), and adding such a file is undefined (C66); add-with-tree is not all-or-nothing (C66).
* Valid headers with gaps: parts hashed at one place, read at another (C53); short root-hash entries read outside (C54); signature size above 512 (C60, C94).
* Extraction of and adding behind transport-encoded parts (C35); deletion with trailing data or id 0 never returns (C36); a crash while deleting damages (C62).
* A short file is taken for new (C56); an input that shrinks hangs the add (C58); key padding reads outside one byte (C59); `bpak_pkg_size` is not the file size (C37).
* Transport: the origin's id is compared with itself (C40), or refused (C38); copied parts are not checked for size (C39); no part, no header (C38); encoding twice drops the payload (C95);
  `bpak transport` without `--origin` reads an uninitialised variable (C99).
* Raw signatures are not bounded (C49, C80, C94). Keystore loading overruns a 512-byte buffer (C72) and does not verify the payload (C73). RSA-4096 keys are never accepted from memory (C101).
* CLI: `compare` (C74), `set` (C75–C77), `add --meta` of long files (C78), `show` (C69, C70, C80, C81), names starting with 0x (C77, C85), `generate keystore` (C97, C98).
* The command line: `-h` makes `verify` succeed (C108); further operands, unknown generators, documented options, `--`, `sign` without a key (C112).
* Resources: keys loaded from a file leave their context, `bpak transport` its output, refused LZMA deltas their decoder; unchecked allocations (C116); a Python
  constructor that fails closes the stream twice (C117); an installed allocator meets `free` (C118).
* A package given a second time: adding it to itself does not end unless it consists of whole 4096-byte blocks (C124); a command whose output is its input destroys it (C125).
* A hash function that fails on the header goes unnoticed: uninitialised memory is verified or signed (C120).
* Python: range checks that never raise (C90), stale payload hash (C90), renaming to a taken id or to 0 (C92), `add_meta` of 64 KiB, refused
  or with only a size (C93), failed `sign` wipes the signature (C94).

## Per property: what is modelled, how it is proved

`Code` are the functions the property is about (all modelled, see above); `Lean` the module with the theorems. Status as in MANIFEST.json;
*refuted* means that the property as stated in properties.jsonl (or a natural strengthening of it, named in the theorem) is false of the
code and a theorem `..._is_false` (or the one named) proves that, beside the strongest part that holds.

| id | property | code | Lean | how proved | status |
|----|----|----|----|----|----|
| C01 | Identifier hash is CRC-32 polynomial division and streams | lib/bpakcrc.c:bpak_crc32; lib/id.c:bpak_id | Id | 256-entry table checked entry by entry against bitwise division (kernel evaluation over the whole finite table), linearity of the bitwise step, then induction on the string | proved |
| C02 | Hash-tree part id is derivable from the part id alone | lib/utils.c; lib/id.c; lib/merkle.c; lib/verify.c | Id, Part | streaming of C01 for the suffix; injectivity of a CRC step in its start value | proved |
| C03 | Metadata lookup is a first-match search | lib/bpak.c:bpak_get_meta_int; lib/bpak.c:bpak_get_meta; lib/bpak.c:bpak_get_meta_anyref | Meta | induction on the slot table; specification: least index that matches | proved |
| C04 | Successful bpak_add_meta adds exactly one retrievable entry | lib/bpak.c:bpak_add_meta; lib/bpak.c:bpak_get_meta | Meta | case analysis of `addMeta` on headers reachable by any history (invariant `Inv`), new entry list = old list + the new one | proved |
| C05 | Metadata ranges never overlap over any history | lib/bpak.c:bpak_add_meta; lib/bpak.c:bpak_del_meta; lib/bpak.c:bpak_init_header | Meta | invariant over arbitrary operation histories (`Reachable`, induction on the history) | proved |
| C06 | bpak_add_meta return code is exact | lib/bpak.c:bpak_add_meta | Meta | same invariant; the three failure codes characterised by used slots and bytes | proved |
| C07 | A failed bpak_add_meta leaves the header unchanged | lib/bpak.c:bpak_add_meta | Meta | negation by reachable witness, and for every header with a free slot; the true half by cases | partial + refuted |
| C08 | bpak_del_meta removes one entry and preserves all others | lib/bpak.c:bpak_del_meta | Meta | exact effect of deletion on the byte area, then the entry-list statements; negation by a reachable witness | partial + refuted |
| C09 | bpak_del_meta touches only the metadata table | lib/bpak.c:bpak_del_meta | Meta | the shifting loop modelled with an out-of-bounds outcome; cases on whether the last slot is used | partial |
| C10 | Part table lookup/insert | lib/bpak.c:bpak_add_part; lib/bpak.c:bpak_get_part | Part | induction on the part table and on histories | proved |
| C11 | bpak_del_part removes exactly one part and keeps order | lib/bpak.c:bpak_del_part | Part | induction on the part table | proved |
| C12 | Part data ranges tile the file | lib/bpak.c:bpak_part_offset; lib/bpak.c:bpak_part_size | Part | offset = sum of stored sizes before; prefix-sum argument | proved |
| C13 | bpak_valid_header decides its documented predicate | lib/bpak.c:bpak_valid_header | Part | loops over the tables shown equal to the documented predicate | proved |
| C14 | Headers built through the API stay valid | lib/bpak.c:bpak_init_header; lib/bpak.c:bpak_valid_header | Part | induction on histories | proved |
| C15 | Header image round trip | include/bpak/bpak.h:struct bpak_header; lib/pkg.c:bpak_pkg_write_header; lib/pkg.c:bpak_pkg_open | Header | little-endian round trip per field, concatenation/splitting of the 4096-byte image | proved |
| C16 | bpak_copyz_signature extracts and blanks the signature | lib/bpak.c:bpak_copyz_signature | Header | cases on sizes | proved |
| C17 | Header hash covers everything but the signature | lib/verify.c:bpak_verify_compute_header_hash | Header | abstract hash over the concatenated updates; zero-fill loop by induction | proved, with counter-claims refuted |
| C18 | bpak_bin2hex output and bounds | lib/utils.c:bpak_bin2hex | Utils | buffer as bounded memory; induction on the digits; out-of-bounds characterised by iff | partial + refuted |
| C19 | UUID text round trip | ext/uuid/parse.c; ext/uuid/unparse.c; ext/uuid/pack.c; ext/uuid/unpack.c | Utils | per-nibble finite lemma, structural unfolding of parse/unparse | proved |
| C20 | Patch integer coding round trip | lib/bsdiff.c:offtout; lib/bspatch.c:offtin | Patch | base-256 arithmetic on `BitVec 64` | proved |
| C21 | Patch application does not depend on input chunking | lib/bspatch.c:bspatch_write; lib/bspatch.c:bpak_bspatch_write | Patch | chunk-append lemma for the decoder state machine; buffer size does not enter the result | proved |
| C22 | Patch application computes the bsdiff semantics | lib/bspatch.c:bspatch_write | Patch | refinement of the state machine to the record semantics in `Spec/Patch` | proved |
| C23 | bsdiff then bspatch restores the new data | lib/bsdiff.c:bpak_bsdiff; lib/bsdiff.c:write_diff_extra_and_adjustment; lib/bspatch.c | Bsdiff | loop invariant of the encoder for an arbitrary search oracle, then C22; own search: binary search shown to stay in range | partial |
| C24 | Heatshrink decoding does not depend on chunking | lib/heatshrink/heatshrink_decoder.c | HsDec | state-machine run refined to a bit-stream grammar (`Spec/Heatshrink`) for every schedule of sink/poll calls | proved |
| C25 | Heatshrink compress/decompress round trip | lib/heatshrink/heatshrink_encoder.c; lib/heatshrink/heatshrink_decoder.c | HsEnc | encoder state machine emits a token sequence of the grammar which denotes the input; composition with C24 | proved |
| C26 | Compressed delta round trip | lib/bsdiff.c:hs_compressor_write; lib/bspatch.c:bspatch_hs_write | HsDelta | composition of C22–C25 through the bsdiff/bspatch buffers | proved |
| C27 | Merkle tree size is the exact tree size | lib/merkle.c:bpak_merkle_compute_size; lib/merkle.c:bpak_merkle_init | Merkle | closed form for the level sizes, induction on levels | partial + refuted |
| C28 | Merkle tree does not depend on write chunking | lib/merkle.c:bpak_merkle_write_chunk | Merkle | block-buffer invariant; result a function of the concatenation | proved |
| C29 | Merkle root is the salted hash tree root | lib/merkle.c:bpak_merkle_finish; lib/merkle.c:bpak_merkle_write_chunk | Merkle | level-by-level invariant of the incremental builder against a recursive tree in `Spec/Merkle` | proved |
| C30 | Merkle verification accepts exactly matching trees | lib/verify.c:bpak_verify_merkle_tree | Merkle | walk of the verifier by induction over levels and blocks; collision extraction for the binding statement | proved |
| C31 | Payload hash covers exactly the non-excluded parts | lib/verify.c:bpak_verify_compute_payload_hash | Verify | loop over parts = hash of the concatenated ranges | proved |
| C32 | Payload verification detects payload changes | lib/verify.c:bpak_verify_payload | Verify | C30/C31 with collisions of the abstract hash as explicit alternative | proved |
| C33 | Sign then verify | lib/pkg_sign.c:bpak_pkg_sign; lib/pkg_verify.c:bpak_pkg_verify | PkgSign | abstract signature scheme with a correctness law | proved |
| C34 | Verification detects header tampering | lib/pkg_verify.c:bpak_pkg_verify | PkgSign | as C33; conclusion is: accepted bytes were what the scheme was asked about | proved |
| C35 | Add then extract returns the file | lib/pkg_create.c:bpak_pkg_add_file; lib/pkg.c:bpak_pkg_extract_file | Pkg, PkgHistory | file as byte list; write/read lemmas; add-loop by induction on remaining size | proved, with counter-claims refuted |
| C36 | Deleting a part preserves other parts | lib/pkg.c:bpak_pkg_delete_part | PkgDelete | move-loop invariant, list surgery on the file | proved, with counter-claims refuted |
| C37 | Package size accounting | lib/pkg.c:bpak_pkg_size; lib/pkg.c:bpak_pkg_installed_size | PkgSign | sums over the part table | proved, with counter-claims refuted |
| C38 | Transport encode/decode round trip | lib/transport_encode.c; lib/transport_decode.c; lib/pkg.c:bpak_pkg_transport_decode | Transport, TransportEx | per-part encode/decode simulation, induction over the part list; uses C22–C26 and C29 | partial + refuted |
| C39 | Transport decode enforces the declared size | lib/transport_decode.c:bpak_transport_decode_finish | TransportSize | invariant: bytes written so far, per decoder kind | partial + refuted |
| C40 | Delta update refuses a foreign origin | lib/transport_decode.c:bpak_transport_decode_set_origin; lib/transport_encode.c:bpak_transport_encode | TransportId | case analysis of the id checks | partial + refuted |
| C41 | Keystore gives out keys only when verified | lib/keystore.c:bpak_keystore_get | Utils | search by induction | proved |
| C42 | Allocator override is all-or-nothing | lib/mem.c | Utils | induction on the history of calls | proved |
| C43 | Every result code has a distinct description | lib/bpak.c:bpak_error_string | Utils | finite table by kernel evaluation (the domain of codes is finite), default by cases | proved |
| C44 | Transport metadata attach | lib/bpak.c:bpak_add_transport_meta | Meta | from C04 with the 24-byte entry | proved |
| C45 | Patch decoder is memory safe on arbitrary input | lib/bspatch.c:bspatch_write | Patch | invariant of the patch decoder over arbitrary input; negation by witness | partial + refuted |
| C46 | What is left of a truncated patch | lib/bspatch.c:bpak_bspatch_final; lib/transport_decode.c:bpak_transport_decode_finish | Patch | prefix argument on the record semantics | proved |
| C47 | Delete-all empties the package | lib/pkg.c:bpak_pkg_delete_all_parts | PkgDelete | iteration of C36 | proved, with counter-claims refuted |
| C48 | Added parts are aligned | lib/pkg_create.c | Pkg | arithmetic of the padding | proved |
| C49 | Raw signature write respects the signature area | lib/pkg.c:bpak_pkg_write_raw_signature | PkgSign | cases on the length | proved, with counter-claims refuted |
| C50 | Heatshrink decoder is memory safe on arbitrary input | lib/heatshrink/heatshrink_decoder.c | HsDec | invariant of the decoder indices over arbitrary input | proved |
| C51 | Patch decoder terminates | lib/bspatch.c:bspatch_write | HsDelta, Patch | decreasing measure; the fuel of the model shown sufficient | proved |
| C52 | Printed id names are right | lib/utils.c:bpak_id_to_string | Utils | finite table, each entry checked against `bpakId` by kernel evaluation | proved |
| C53 | A part is hashed where it is read | lib/verify.c:bpak_verify_compute_payload_hash; lib/bpak.c:bpak_part_offset; lib/bpak.c:bpak_valid_header | Verify | two prefix sums compared; negation by a valid header with a gap | partial + refuted |
| C54 | Payload verification stays inside the header | lib/verify.c:bpak_verify_payload | Verify | invariant of the verifier; negation by reachable witness | partial + refuted |
| C55 | Part digest is the digest of the part's data | lib/pkg_verify.c:bpak_pkg_part_sha256 | Verify | read loop = hash of the range | proved |
| C56 | Opening a package | lib/pkg.c:bpak_pkg_open | PkgSign | cases on length and header of the file | proved, with counter-claims refuted |
| C57 | A crash while adding a part keeps the old package | lib/pkg_create.c:bpak_pkg_add_file | Pkg | every prefix of the writes of an add, as a file | proved |
| C58 | Adding a file terminates | lib/pkg_create.c:bpak_pkg_add_file | Pkg | measure for the unchanged input; the other case: every fuel runs out | partial + refuted |
| C59 | Adding a key pads with zeros | lib/pkg_create.c:bpak_pkg_add_key | Pkg | write loop modelled with the one-byte source; cases on padding | partial + refuted |
| C60 | Verification stays inside the signature array | lib/pkg_verify.c:bpak_pkg_verify | PkgSign | bounds of the ranges handed to the signature function | partial + refuted |
| C61 | A history of package calls leaves exactly the expected files | lib/pkg.c:bpak_pkg_open; lib/pkg_create.c:bpak_pkg_add_file; lib/pkg.c:bpak_pkg_delete_part; lib/pkg.c:bpak_pkg_extract_file; lib/pkg_sign.c:bpak_pkg_sign | PkgHistory | abstract map from ids to contents; simulation over histories | proved |
| C62 | Crash while deleting a part | lib/pkg.c:bpak_pkg_delete_part; lib/pkg.c:bpak_pkg_write_header | PkgHistory | prefixes of the writes of a delete | partial + refuted |
| C63 | Compression expands data by at most one bit per byte | lib/heatshrink/heatshrink_encoder.c; lib/bsdiff.c:hs_compressor_write | DeltaSize | token cost potential argument | proved |
| C64 | Delta size is linear in the new data | lib/bsdiff.c:bpak_bsdiff; lib/bsdiff.c:write_diff_extra_and_adjustment | DeltaSize | cost of records; then C63 | proved |
| C65 | Adding a file with its hash tree: end-to-end | lib/pkg_create.c: bpak_pkg_add_file_with_merkle_tree; lib/merkle.c: bpak_merkle_compute_size, bpak_merkle_init, bpak_merkle_write_chunk, bpak_merkle_done | PkgTree | composition of C35 and C29 through the file | proved |
| C66 | A failing add-with-tree leaves the package as it was | lib/pkg_create.c: bpak_pkg_add_file_with_merkle_tree | PkgTree | case analysis of failures with the file left behind | partial + refuted |
| C67 | Crash while adding a file with its hash tree | lib/pkg_create.c: bpak_pkg_add_file_with_merkle_tree, bpak_pkg_add_file; lib/pkg.c: bpak_pkg_write_header | PkgTree | prefixes of the writes of add-with-tree | proved |
| C68 | Every package built with files, hash trees, metadata and keys verifies after signing | lib/pkg_create.c: bpak_pkg_add_file, bpak_pkg_add_file_with_merkle_tree; lib/pkg_sign.c: bpak_pkg_sign; lib/pkg_verify.c: bpak_pkg_verify; lib/pkg.c: bpak_pkg_open, bpak_pkg_write_header; lib/bpak.c: bpak_add_meta | BuildHistory | simulation with trees, then C30–C33 | proved |
| C69 | Rendering a metadata entry as text stays inside the header and inside the caller's buffer | lib/utils.c:bpak_meta_to_string; lib/utils.c:bpak_bin2hex; src/compare.c; src/show.c | Show | bounds of each rendering branch | partial + refuted |
| C70 | The text of a metadata entry says what the entry holds | lib/utils.c:bpak_meta_to_string; lib/uuid.c; lib/utils.c:bpak_uuid_to_string | Show | each rendering branch against `Spec/Show` | proved, with counter-claims refuted |
| C71 | A key loaded from a keystore is the key stored under the asked id in the asked keystore | lib/keystore_load_from_file.c:bpak_keystore_load_key_from_file; include/bpak/keystore.h; lib/bpak.c:bpak_get_meta; lib/bpak.c:bpak_get_part | Keystore | simulation (C61) + loader unfolding | partial |
| C72 | Loading a key from a keystore stays inside its buffers | lib/keystore_load_from_file.c:bpak_keystore_load_key_from_file | Keystore | bounds of the loader | partial + refuted |
| C73 | Tampering with a key in a keystore is noticed | lib/keystore_load_from_file.c:bpak_keystore_load_key_from_file; lib/verify.c:bpak_verify_payload | Keystore | same header, other payload; C32 for the verified half | partial + refuted |
| C74 | bpak compare marks each metadata entry and part as its legend says | src/compare.c:action_compare; lib/bpak.c:bpak_get_meta; include/bpak/bpak.h:bpak_get_meta_ptr | Compare | row lists by induction over the tables | partial + refuted |
| C75 | bpak set --meta NAME --from-string TEXT changes that metadata entry and nothing else | src/set.c:action_set; lib/bpak.c:bpak_del_meta; lib/bpak.c:bpak_add_meta | Set | composition of delete and add of the entry (C04, C08), packed-table invariant | partial + refuted |
| C76 | bpak set --encoder stores the value that the text denotes, or fails and changes nothing | src/set.c:action_set; include/bpak/bpak.h:bpak_get_meta_ptr | SetValue | `strtol` model proved against a specification of numerals | proved, with counter-claims refuted |
| C77 | Key and keystore ids given by name or number are set as given | src/main.c:bpak_get_id_for_name_or_ref; src/set.c:action_set | SetValue | same numerals; field update | proved, with counter-claims refuted |
| C78 | bpak add --meta adds one entry with the encoded content, or fails and changes nothing | src/add.c:action_add; lib/bpak.c:bpak_add_meta; ext/uuid/parse.c:uuid_parse | Add | C04 through the command | proved, with counter-claims refuted |
| C79 | bpak create makes an empty package of the chosen kinds, and only where it may | src/create.c:action_create; lib/pkg.c:bpak_pkg_open; lib/bpak.c:bpak_init_header | Create | cases on options and file | proved |
| C80 | Signing with a key the tool never sees | src/show.c: action_show; src/sign.c: action_sign, action_verify; lib/pkg.c: bpak_pkg_update_hash, bpak_pkg_write_raw_signature; lib/pkg_verify.c: bpak_pkg_verify | SignRaw | C33 with the signature made outside | proved, with counter-claims refuted |
| C81 | The report of bpak show is complete and warns exactly when the payload hash is wrong | src/show.c: action_show; lib/utils.c: bpak_meta_to_string, bpak_bin2hex; lib/pkg.c: bpak_pkg_update_hash | Report | row lists by induction, hash comparison | proved, with counter-claims refuted |
| C82 | bpak show --meta, --part and --part-hash answer about the named entry or part | src/show.c: action_show; src/main.c: bpak_get_id_for_name_or_ref; lib/pkg_verify.c: bpak_pkg_part_sha256 | ShowOne | lookup theorems C03/C10 through the command | proved |
| C83 | bpak verify --keystore uses exactly the key the package names | src/sign.c: action_verify; lib/keystore_load_from_file.c: bpak_keystore_load_key_from_file; lib/pkg_verify.c: bpak_pkg_verify | VerifyKeystore | composition of C71 and C33 | partial |
| C84 | Any session with the command line tool keeps a good package | src/main.c: main; src/create.c: action_create; src/add.c: action_add; src/set.c: action_set; src/delete.c: action_delete; src/sign.c: action_sign; src/transport.c: action_transport; src/extract.c: action_extract | Session | simulation of every command over the abstract package, induction on the session | proved |
| C85 | What goes in under a name comes out under the name | src/add.c: action_add; src/extract.c: action_extract; src/main.c: bpak_get_id_for_name_or_ref; lib/pkg.c: bpak_pkg_extract_file | Names | composition of C84 with the two ways names become ids | proved, with counter-claims refuted |
| C86 | bpak add --part: when it is refused, and what it changes | src/add.c: action_add; lib/pkg_create.c: bpak_pkg_add_file, bpak_pkg_add_file_with_merkle_tree | CliChanges | exact refusal conditions and frame of one command | proved |
| C87 | bpak delete: what goes and what stays | src/delete.c: action_delete; lib/pkg.c: bpak_pkg_delete_part, bpak_pkg_delete_all_parts | CliChanges | exact effect and frame of one command | proved |
| C88 | bpak transport --add: when it is refused, and what it writes | src/transport.c: action_transport; lib/bpak.c: bpak_add_transport_meta | CliChanges | exact refusal conditions and frame of one command | proved |
| C89 | Python programs: the package always holds what the program put in it | python/package.c; python/part.c; python/meta.c; lib/pkg.c; lib/pkg_create.c: bpak_pkg_add_file, bpak_pkg_add_file_with_merkle_tree, bpak_pkg_add_key | PySession | simulation of every method over the abstract package, induction on the program | partial |
| C90 | Python: integer attributes of a package | python/package.c: package_set_key_id, package_set_keystore_id, package_set_hash_kind, package_set_signature_kind; python/meta.c: meta_set_id, meta_set_part_id_ref; python/part.c: part_set_id | Python | field update + C15 | partial + refuted |
| C91 | Python: raw_data and as_string of a metadata entry | python/meta.c: meta_get_rawdata, meta_set_rawdata, meta_as_string, meta_get_size | PyMeta | entry of the abstract package through the object | proved |
| C92 | Python: renaming parts and metadata entries | python/part.c: part_set_id; python/meta.c: meta_set_id, meta_set_part_id_ref | PyMeta | table update + lookup theorems; negations for every package | proved, with counter-claims refuted |
| C93 | Python: add_meta | python/package.c: package_add_meta; lib/bpak.c: bpak_add_meta | PyAdd, PyExample | C04/C06 through the method | proved, with counter-claims refuted |
| C94 | Python: the signature attribute and sign | python/package.c: package_get_signature, package_set_signature, package_sign; lib/pkg.c: bpak_pkg_write_raw_signature; lib/pkg_sign.c: bpak_pkg_sign | PyAdd | signature bytes of the image; negations for every package | proved, with counter-claims refuted |
| C95 | Encoding a package that is encoded already | lib/transport_encode.c: transport_encode_part, bpak_transport_encode; lib/pkg.c: bpak_pkg_transport_encode | EncodeTwice | marking invariant of the encoder loop, then a second run that copies nothing | proved, with counter-claims refuted |
| C96 | The offset stored with each part | lib/pkg_create.c: bpak_pkg_add_file, bpak_pkg_add_file_with_merkle_tree, bpak_pkg_add_key; lib/pkg.c: bpak_pkg_delete_part; lib/bpak.c: bpak_part_offset | Offsets | invariant of all three kinds of history, through deletion (offsets shifted) and appending | proved |
| C97 | bpak generate keystore | src/generate.c: action_generate | CryptoAccept, Generate, GenerateNames | loop invariant over the part table + C96; the flaw from the theorem for success | proved, with counter-claims refuted |
| C98 | The keystore compiled from generated code | src/generate.c: action_generate; lib/keystore.c: bpak_keystore_get; lib/keystore_load_from_file.c: bpak_keystore_load_key_from_file | Generate | both sides equal to a lookup in the list of files (C71); the flaw for every payload | partial + refuted |
| C99 | Sending packages with the transport command | src/transport.c: action_transport; lib/pkg.c: bpak_pkg_transport_encode, bpak_pkg_transport_decode; python/python_wrapper.c: m_transport_encode, m_transport_decode | LinesOut, TransportCmd | history invariant (C61, C96) gives the hypotheses of C38; header check of the encoded package by C13 | partial + refuted |
| C100 | LZMA-compressed deltas restore the new file | lib/bsdiff.c:lzma_compressor_write; lib/bsdiff.c:lzma_compressor_final; lib/bsdiff.c:bpak_bsdiff; lib/bspatch.c:bpak_bspatch_write; lib/bspatch.c:bpak_bspatch_final | Lzma | refinement: the compressor and decompressor loops run LzRan histories of the library, whose laws give the bytes; then C23 | proved |
| C101 | Key files and keys in memory | lib/mbedtls_wrapper.c:bpak_mbed_load_public_key; lib/mbedtls_wrapper.c:bpak_mbed_load_private_key; lib/mbedtls_wrapper.c:bpak_mbed_parse_public_key; lib/mbedtls_wrapper.c:bpak_mbed_verify; include/bpak/bpak.h:bpak_key_kind | Crypto, SignVerify | case analysis of the wrapper over an abstract pk layer (structure Mbed); the laws of that layer (MbedLaws) give the round trip of keys | proved, with counter-claims refuted |
| C102 | Sign with a key file, verify with a key file or a keystore | lib/pkg_sign.c:bpak_pkg_sign; lib/pkg_verify.c:bpak_pkg_verify; lib/mbedtls_wrapper.c:bpak_mbed_sign; src/sign.c:action_sign; src/sign.c:action_verify; lib/keystore_load_from_file.c:bpak_keystore_load_key_from_file | CryptoAccept, SignVerify | session_build (building sessions keep BuildInv) + the closed form of signing + C33; keystores: session_inv of the keystore + exactness of loading (C71) | proved |
| C103 | Python: what can be read from a package is what the library wrote | python/package.c:package_get_part; python/package.c:package_get_meta; python/package.c:package_get_size; python/package.c:package_get_installed_size; python/package.c:package_get_digest; python/package.c:package_verify; python/part.c:part_get_size; python/part.c:part_get_offset; python/part.c:part_is_transport_encoded; python/meta.c:meta_as_uuid; python/python_wrapper.c:m_generate_id | PyRead | invariant of Python programs (C89) with the padding of each part made exact, then C12, C03/C10, C33, C37 | proved |
| C104 | The suffix sort is correct and safe | lib/sais.c:sais; lib/sais.c:sais_main; lib/sais.c:lms_sort_1; lib/sais.c:lms_sort_2; lib/sais.c:lms_postproc_1; lib/sais.c:lms_postproc_2; lib/sais.c:induce_sa | SuffixArray | the loops of each pass refine an abstract pass over lists (Proof/SaisPass..SaisSeg); invariants: bucket heads and ends, sorted prefixes; LMS order by induction on the distance to the end of the text; the reduced text orders as the LMS suffixes do; strong induction on the length of the text for the recursion; the memory by frame conditions (Proof/SaisHeap, SaisPlace) | proved |
| C105 | A delta made with the encoder's own suffix array restores the new file | lib/bsdiff.c:bpak_bsdiff_init; lib/bsdiff.c:bpak_bsdiff; lib/bsdiff.c:search; lib/sais.c:sais; lib/bspatch.c:bpak_bspatch_write | OwnSearch, SuffixArray | C104 for the array, monotonicity of the sorted suffixes for the bounds of the binary search, then C23; the refutations by induction on the interval | partial |
| C106 | A write that fails is reported, and nothing is lost silently | lib/pkg.c:bpak_pkg_open; lib/pkg.c:bpak_pkg_write_header; lib/pkg.c:bpak_pkg_delete_part; lib/pkg.c:bpak_pkg_delete_all_parts; lib/pkg.c:bpak_pkg_write_raw_signature; lib/pkg_create.c:bpak_pkg_add_file; lib/pkg_create.c:bpak_pkg_add_key; lib/pkg_create.c:bpak_pkg_add_file_with_merkle_tree; lib/pkg_sign.c:bpak_pkg_sign | Disk | a simulation: the package on the disk with room and the one on this disk, step by step through each call (a relation kept by fseek, fwrite, the copy loops, the hash and the header write); sessions by induction on the calls; C57 for what a failed add leaves | proved, with counter-claims refuted |
| C107 | Success is reported only for what is stored | lib/pkg.c:bpak_pkg_close; lib/pkg.c:bpak_pkg_write_header; lib/pkg.c:bpak_pkg_delete_part; lib/pkg_create.c:bpak_pkg_add_file | Disk | the same simulation with an error not yet noticed as part of the state; the refutation for every package by counting the writes of the add and cutting the last | partial + refuted |
| C108 | The exit status of bpak verify can be trusted | src/main.c:main; src/sign.c:action_verify; lib/pkg_verify.c:bpak_pkg_verify; src/sign.c:long_options | Main | getopt_long as a function of the option table and the arguments; the option loop by induction on its events; then verifyCmd and C102_accept_means. The status by cases on the codes | proved, with counter-claims refuted |
| C109 | A command line changes only the files it names for output | src/main.c:main; src/create.c:action_create; src/add.c:action_add; src/set.c:action_set; src/delete.c:action_delete; src/sign.c:action_sign; src/sign.c:action_verify; src/show.c:action_show; src/extract.c:action_extract; src/transport.c:action_transport; src/generate.c:action_generate; src/compare.c:action_compare | MainFrame | each command line as a change of the files within a set of paths (`Within`), getopt returns only arguments or ends of arguments by induction | proved |
| C110 | The order of options does not matter | src/create.c:action_create; src/add.c:action_add; src/set.c:action_set; src/delete.c:action_delete; src/sign.c:action_sign; src/sign.c:action_verify; src/show.c:action_show; src/extract.c:action_extract; src/transport.c:action_transport; src/generate.c:action_generate | MainOrder | the steps of each option loop commute for different letters; the loop is then invariant under permutations that keep the order of each letter, by induction | proved |
| C111 | A sequence of command lines builds the package it spells | src/main.c:main; src/create.c:action_create; src/add.c:action_add; src/set.c:action_set; src/delete.c:action_delete; src/sign.c:action_sign; src/transport.c:action_transport; src/extract.c:action_extract | Lines | each option loop computes the last arguments; each command after its options is cmdStep of Spec/Session or leaves the package; sequences by induction, then C84_session | proved |
| C112 | Command lines that do less than they look like | src/main.c:main; src/sign.c:action_verify; src/sign.c:action_sign; src/transport.c:action_transport; src/generate.c:action_generate; src/misc.c:print_transport_usage | MainFindings | the getopt model on lines of the shape, C108 for the accepted package | proved |
| C113 | What command lines put into a package, command lines get out | src/main.c:main; src/extract.c:action_extract; src/show.c:action_show; src/compare.c:action_compare; src/generate.c:action_generate | LinesOut | the option loop of each action gives the last argument of each letter (induction on the events); then C111 and the session theorems (C84) | proved |
| C114 | Signed by one command line, verified by another | src/main.c:main; src/sign.c:action_sign; src/sign.c:action_verify; lib/pkg_sign.c:bpak_pkg_sign; lib/pkg_verify.c:bpak_pkg_verify | LinesSign | C111 makes the lines a session; then C102 for the signature and the keystore, with the lines of sign and verify reduced to their commands | proved |
| C115 | The metadata of a package is what the commands put there | src/add.c:action_add; src/set.c:action_set; src/delete.c:action_delete; src/transport.c:action_transport; src/extract.c:action_extract; lib/bpak.c:bpak_add_meta; lib/bpak.c:bpak_del_meta; lib/pkg.c:bpak_pkg_delete_part | MetaHistory | induction on the commands: after each, the entries of the stored header are those of an inductively defined history (Spec/MetaHistory), from the results on single commands (C36, C47, C74-C76, C79, C86-C88) and the session invariant | proved |
| C116 | Everything that is taken is given back, once | lib/pkg.c:bpak_pkg_open; lib/pkg.c:bpak_pkg_close; lib/pkg.c:bpak_pkg_extract_file; lib/pkg_create.c:bpak_pkg_add_file; lib/pkg_create.c:bpak_pkg_add_file_with_merkle_tree; lib/pkg_create.c:bpak_pkg_add_key; lib/pkg_sign.c:bpak_pkg_sign; lib/mbedtls_wrapper.c:bpak_mbed_load_public_key; lib/sais.c:sais_main; lib/bsdiff.c:bpak_bsdiff_init; lib/transport_encode.c:transport_bsdiff; lib/pkg.c:bpak_pkg_transport_decode; src/transport.c:action_transport; src/set.c:action_set; src/generate.c:action_generate | Resource | a second model of the same functions in a monad that leaves out the data and records what is acquired, used and released (Model/Resource.lean), every answer drawn from an arbitrary function; a Hoare logic for traces (Proof/Resource.lean); for the suffix sort an invariant on the flag word by recursion on the depth | partial |
| C117 | The life of a Python package object | python/package.c:package_init; python/package.c:package_dealloc; python/package.c:package_close; python/package.c:package_exit; lib/pkg.c:bpak_pkg_open; lib/pkg.c:bpak_pkg_close | Resource | the same, with the constructor, the methods and the destructor in sequence; the failing constructor by what its trace ends with | partial |
| C118 | An installed allocator and the C library's do not meet | lib/mem.c:bpak_set_calloc_free; lib/mem.c:bpak_calloc; lib/pkg_create.c:bpak_pkg_add_key; src/sign.c:action_verify; lib/bsdiff.c:compressor_init; lib/bspatch.c:decompressor_init; lib/sais.c:sais_main | Resource | the same, with two allocators that must not meet | partial |
| C119 | A command line means what is written on it | src/main.c:main; src/add.c:action_add; src/create.c:action_create; src/show.c:action_show; src/sign.c:action_sign; src/sign.c:action_verify; src/generate.c:action_generate; src/transport.c:action_transport; src/set.c:action_set; src/compare.c:action_compare; src/extract.c:action_extract; src/delete.c:action_delete | Getopt | an inductive grammar of command lines (Spec/Getopt.lean) against the model of getopt_long: soundness by induction on the derivation, completeness by induction on the length of the line; the tables checked one by one | proved |
| C120 | Crypto functions that an application installs | lib/crypto.c:bpak_hash_setup; lib/crypto.c:bpak_crypto_setup; lib/verify.c:bpak_verify_compute_header_hash; lib/verify.c:bpak_verify_compute_payload_hash; lib/verify.c:bpak_verify_payload; lib/pkg_verify.c:bpak_pkg_verify; lib/pkg_sign.c:bpak_pkg_sign; include/bpak/crypto.h | Hooks | a second model of lib/crypto.c, verify.c, pkg_verify.c and pkg_sign.c over an oracle that answers every call of an installed function from the history of calls, and logs them; the log of a successful run by induction on the loops; the refutations by computation with arbitrary memory | partial |
| C121 | Extraction to a disk that can be full | lib/pkg.c:bpak_pkg_extract_file; src/extract.c:action_extract | Extract | induction on the copy loop, with the stream of the disk model (Model/Disk.lean) against the loop on a disk with room; the refutation for every extraction | partial |
| C122 | A hash tree built on storage that can fail | lib/merkle.c:bpak_merkle_init; lib/merkle.c:bpak_merkle_write_chunk; lib/merkle.c:bpak_merkle_finish | MerkleIo | a simulation between two sets of callbacks, through every loop of the tree code; instantiated with the callbacks at hand and a file, for which C29 says what is built | proved |
| C123 | A payload checked through a reader that can fail | lib/verify.c:bpak_verify_payload; lib/verify.c:bpak_verify_compute_payload_hash; lib/verify.c:bpak_verify_merkle_tree; lib/verify.c:merkle_verify_wr | MerkleIo | the same simulation, between the verifier over the reader at hand and over the bytes that are there; then the same for the loops of the payload hash; C32 says what the latter accepts | proved |
| C124 | A package can be added to itself | lib/pkg_create.c:bpak_pkg_add_file | SamePath | a model of the copy loop reading the file it grows (Model/SamePath.lean), over any schedule of held-back data; for sizes that are not whole blocks the counter passes zero, by induction on the blocks and then on the rounds; for whole blocks equality with the ordinary loop | partial + refuted |
| C125 | A command never destroys the package it reads | lib/pkg.c:bpak_pkg_extract_file; lib/transport_encode.c:bpak_transport_encode; lib/pkg.c:bpak_pkg_transport_decode; src/transport.c; src/extract.c | SamePath | models of extraction and of the transport coder with one file for both streams; the extracted file is a prefix of what was read ahead; the refutations for every package of the described shape | partial + refuted |
| C126 | A delta applied through callbacks that can fail | lib/bspatch.c:bspatch_write; lib/bspatch.c:bspatch_hs_write; lib/bspatch.c:bspatch_lzma_write; lib/bspatch.c:bpak_bspatch_final | PatchIo | a second model of lib/bspatch.c over callbacks (Model/PatchIo.lean); a simulation with the first one through the state machine, its loop, and the heatshrink and LZMA drivers; then C23, C26 and C100 | proved |
| C127 | A transport package decoded through callbacks that can fail | lib/transport_decode.c:bpak_transport_decode_start; lib/transport_decode.c:bpak_transport_decode_write_chunk; lib/transport_decode.c:bpak_transport_decode_finish; lib/transport_decode.c:merkle_generate; lib/pkg.c:bpak_pkg_transport_decode | DecodeIo | a second model of lib/transport_decode.c over callbacks (Model/DecodeIo.lean, over Model/PatchIo.lean); a simulation with the first one through start, chunks, finish and the part loop; for hash trees the callbacks of the general Merkle model; then C38 | proved |
| C128 | A delta made through a callback that can fail | lib/bsdiff.c:bpak_bsdiff; lib/bsdiff.c:compressor_write; lib/bsdiff.c:hs_compressor_write; lib/bsdiff.c:hs_compressor_final; lib/bsdiff.c:lzma_compressor_write; lib/bsdiff.c:lzma_compressor_final | DiffIo | a second model of the compressors of lib/bsdiff.c over a callback (Model/DiffIo.lean); a simulation with the first one; a relation between two runs of it into different places; then C23, C26 and C100, and C126 for both ends | proved |

## Axioms of each theorem

From `#print axioms` on every theorem in MANIFEST.json. No axiom other than the three of Lean's standard library occurs.

* **no axioms at all** (6): C14_init_valid, C16_copyz_failure, C18_bin2hex_bound_is_false, C43_error_strings_distinct, C49_bound_is_false, Hk.C120_failure_hidden.
* **`propext`** (16): C07_failed_add_meta_unchanged_is_false, C08_del_meta_preserves_others_is_false, C17_unsupported_kind, C41_unverified_never, C42_rejected_call, C45_memory_safe_is_false, C46_truncation_not_reported, C90_range_check_is_false, C94_long_signature_is_false, C116_key_context_left, C116_decoder_left, C116_transport_command_left, C116_out_of_memory, C117_call_after_close, C118_wrong_function, C126_failure_is_final.
* **`Quot.sound`, `propext`** (43): C01_crc32_streams, C02_hash_tree_id_to_part_id_sound, C10_get_part_is_first_match, C10_get_part_not_found, C12_part_offset_exact, C12_part_ranges_disjoint, C13_valid_header_code, C13_valid_header_metadata_readable, C15_image_is_4096_bytes, C17_header_hash_is_digest_of_signed_bytes, C17_small_buffer_reported_is_false, C20_int_round_trip, C20_int_wire_format, C20_int_range, C23_suffix_array_too_short, C26_extra_input_refused, C28_any_callbacks, C31_bytes_at_part_offsets, C37_installed_size, C37_pkg_size, C37_sizes_vs_file, C41_keystore_get_fail, C42_hooks_are_last_valid_pair, C42_matched_pair, C43_unknown_iff, C53_hashed_where_read_is_false, C77_id_for_name_or_ref, C90_u32, C93_bad_arguments, C108_status, C116_suffix_sort, C116_session, C116_session_partial, C116_transport, C116_transport_partial, C116_commands_partial, C116_transport_command_partial, C117_life_partial, C117_failed_constructor, C118_session_partial, C118_transport_partial, Hk.C120_hash_functions, Hk.C120_crypto_functions.
* **`Classical.choice`, `Quot.sound`, `propext`** (375): C01_crc32_is_bitwise_division, C01_id_is_crc, C01_one_byte_change_changes_id, C02_hash_tree_id_of_name, C02_hash_tree_id_by_name, C02_hash_tree_id_injective, C02_hash_tree_id_to_part_id, C03_get_meta_is_first_match, C03_get_meta_not_found, C03_get_meta_anyref_is_first_match, C03_get_meta_anyref_not_found, C04_add_meta_success, C05_meta_ranges_disjoint, C06_add_meta_code, C07_no_fit_always_leaves_ghost_entry, C07_failed_add_meta_unchanged_partial, C08_del_meta_exact, C08_del_meta_keys_partial, C08_del_meta_content_partial, C09_del_meta_touches_only_metadata_partial, C09_del_meta_full_table_out_of_bounds, C10_part_ids_distinct, C10_add_part_code, C10_add_part_effect, C11_del_part, C14_reachable_valid, C15_write_read, C15_read_write, C15_layout, C15_reachable_wf, C16_copyz_code, C16_copyz_success, C17_signed_bytes_exact, C18_bin2hex_content, C18_bin2hex_in_bounds_iff, C18_bin2hex_bound_partial, C19_uuid_parse_exact, C19_uuid_parse_rejects, C19_uuid_unparse_exact, C19_uuid_round_trip, C19_uuid_to_string, C19_uuid_to_string_in_bounds, C21_chunking_irrelevant, C21_buffer_size_irrelevant, C22_decoder_applies_records, C23_diff_then_patch, C23_own_search_partial, C24_decode, C24_schedules_agree, C24_progress, C25_encode, C25_round_trip, C25_finishes, C25_accepts, C25_memory_safe, C26_compressed_diff_then_patch, C26_like_plain, C27_size_exact, C27_init_layout, C27_agreement_is_false, C27_agreement_partial, C28_chunking_irrelevant, C29_builds_the_hash_tree, C29_tree_size, C30_accepts_iff, C30_error_names_difference, C30_one_block_accepts_iff, C30_built_tree_verifies, C30_root_binds_data, C30_one_block_padding_unchecked, C31_payload_hash_covers, C31_excluded_bytes_free, C32_accepts_iff, C32_hashed_change_detected, C32_tree_part_change_detected, C33_verify_iff, C33_sign, C33_sign_then_verify, C33_failed_sign_leaves_file, C34_accepted_was_signed, C35_add_file, C35_add_refused, C35_extract_file, C35_extract_not_found, C35_extract_transport_is_false, C35_add_after_transport_is_false, C35_hash_stored, C36_delete_part, C36_not_found, C36_trailing_data_is_false, C36_full_table_is_false, C36_id_zero_is_false, C37_size_is_file_size_is_false, C38_encode, C38_round_trip_partial, C38_round_trip_is_false, C38_no_parts_is_false, C39_decode_partial, C39_is_false, C39_package, C39_package_file, C40_encode, C40_encode_same, C40_encode_missing_id, C40_decode_is_false, C40_decode_partial, C41_keystore_get_ok, C43_error_string_injective, C44_add_transport_meta, C45_memory_safe_partial, C46_truncated_output_is_prefix, C47_delete_all, C47_full_table_is_false, C48_padding, C48_header_stays_valid, C49_raw_signature, C50_memory_safe, C51_compressed_terminates, C51_terminates, C52_id_to_string_sound, C52_id_to_string_injective, C53_hashed_where_read_partial, C54_memory_safe_is_false, C54_memory_safe_partial, C55_part_sha256, C56_open_existing, C56_open_new, C56_open_short_file_is_false, C57_crash_while_adding, C58_terminates_is_false, C58_terminates_partial, C59_add_key_is_false, C59_add_key_partial, C60_verify_in_bounds_is_false, C60_verify_in_bounds_partial, C61_history, C62_crash_while_deleting_is_false, C62_crash_while_deleting_partial, C63_compressed_size, C64_delta_size, C64_compressed_delta_size, C65_add_file_with_tree, C65_success_iff, C66_all_or_nothing_is_false, C66_empty_file_half_added, C66_large_file_undefined, C66_tree_id_taken, C66_all_or_nothing_partial, C67_crash_while_adding_tree, C68_history_with_trees, C68_built_package_verifies, C69_reads_outside_iff, C69_reads_inside_is_false, C69_reads_inside_partial, C69_writes_inside_is_false, C69_writes_inside_partial, C70_text, C70_version_as_stored, C70_terminated_is_false, C71_load_sound, C71_load_exact_partial, C72_in_bounds_is_false, C72_in_bounds_partial, C73_integrity_is_false, C73_verified_integrity_partial, C74_marks_partial, C74_removed_entry_is_false, C74_marks_is_false, C75_set_text_in_place, C75_set_text_grow, C75_set_text_partial, C75_unknown_name, C75_set_text_overruns_is_false, C75_set_text_is_false, C76_set_integer, C76_not_a_number, C76_set_id, C76_wrong_size, C76_malformed_is_false, C77_id_is_false, C77_set_ids, C77_ids_ignored_is_false, C78_add_meta, C78_refused, C78_long_file_is_false, C79_create, C79_create_refused, C80_external_signing, C80_long_signature_is_false, C80_show_hash_is_false, C81_report, C81_warning, C81_sha512_is_false, C81_stale_text_is_false, C82_show_part, C82_show_part_hash, C82_show_meta, C83_verify_with_keystore_partial, C84_session, C84_failed_command_changes_nothing, C84_no_file, C85_add_extract, C85_hex_name_is_false, C85_extract_meta, C85_select_one, C86_add_part, C86_add_part_with_tree, C87_delete, C87_delete_all, C88_transport_add, C89_python_session, C89_exception_changes_nothing, C89_call_returns_partial, C90_integer_attributes, C90_hash_kind_partial, C90_hash_kind_is_false, C91_raw_data, C91_no_entry, C91_as_string, C91_text_round_trip, C92_part_id, C92_taken_id_is_false, C92_id_zero_is_false, C92_meta_key, C93_add_meta, C93_large_is_false, C93_refused_is_false, C93_fresh_entry_is_false, C94_signature, C94_signature_length_is_false, C94_failed_sign_is_false, C95_encoded_package_is_false, C95_encode_twice_is_false, C96_offsets_session, C96_offsets_history, C96_offsets_python, C97_any_file, C97_generate_success, C97_size_is_false, C97_generate_failure, C97_symbols, C98_static_keystore_partial, C98_verified_is_false, C99_lines_partial, C99_send_and_restore_partial, C99_encode_other_package, C99_no_origin_is_false, C99_python_partial, C99_python_output_object_is_false, C100_lzma_diff_then_patch, C100_lzma_returns, C101_load_public, C101_load_private, C101_codes, C101_parse_public, C101_curve_keys, C101_verify, C101_rsa_is_false, C101_generate_rsa_is_false, C102_accept_means, C102_no_key_never_accepts, C102_sign_then_verify, C102_own_key, C102_sign, C102_keystore, C103_part_attributes, C103_part_gone, C103_lookup, C103_meta_attributes, C103_id, C103_get_part_zero, C103_sizes, C103_digest, C103_verify, C104_suffix_array, C104_no_failure, C104_unique, C104_exists, C105_send_and_restore_partial, C105_init, C105_round_trip_partial, C105_round_trip_max_byte_partial, C105_same_file_partial, C105_reads_past_end, C105_short_origin, C106_no_silent_loss, C106_open, C106_with_room, C106_session, C106_failed_add, C106_retry_is_refused, C106_failed_add_is_forgotten_is_false, C107_only_the_header_partial, C107_next_call_reports, C107_success_means_stored_is_false, C108_verify_means, C108_verify_line, C108_verified_signature, C108_verify_help_is_false, C109_frame, C109_unnamed, C109_refused, C109_read_only, C110_option_order, C110_verbose, C111_line, C111_lines_are_a_session, C111_contents, C112_further_operands, C112_third_operand, C112_verify_two_files, C112_transport_letters, C112_generate_unknown, C112_dashes, C112_sign_nothing, C113_extract_line, C113_extract, C113_show_line, C113_compare_line, C113_generate_line, C114_sign_then_verify, C114_own_key, C114_keystore, C115_metadata, C115_extract, C115_extract_line, C119_tables, C119_reads, C119_unambiguous, C119_spelling, C119_unreadable, C119_flag, C119_first, Hk.C120_payload_hash, Hk.C120_verify, Hk.C120_verify_partial, Hk.C120_sign, Hk.C120_sign_partial, Hk.C120_sign_failed, Hk.C120_stale_memory_checked, Hk.C120_stale_memory_signed, C121_extract_file, C121_extract_file_partial, C121_command, C121_command_partial, C121_with_room, C121_part_partial, C121_lost_output_reported, C122_success_means_tree, C122_error_is_the_callbacks, C122_no_failure_builds, C122_any_length, C123_hash_of_what_is_there, C123_tree_verdict, C123_verdict_or_failure, C123_accept_means, C123_wrong_is_refused, C124_add_self_is_false, C124_add_self_partial, C124_add_self_content_partial, C125_extract_self_is_false, C125_extract_self_absent_partial, C125_encode_self_is_false, C125_decode_self_is_false, C126_applied_or_reported, C126_heatshrink, C126_lzma, C126_any_stream, C127_decoded_or_reported, C127_any_package, C128_plain, C128_heatshrink, C128_lzma, C128_end_to_end, C128_end_to_end_heatshrink.
