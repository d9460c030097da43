{"id": "C01", "title": "Identifier hash is CRC-32 polynomial division and streams", "statement": "bpak_crc32(crc,data,n), the table-driven routine behind bpak_id, computes, for every starting value and every byte string, the bit-by-bit reflected division by polynomial 0xEDB88320 with no pre/post inversion; and feeding a string in two pieces, the first result being the second call's start value, equals feeding it whole.", "quantifier": "every 32-bit start value, every byte string of any length, every split point", "why_tests_cant": "The input space is unbounded; a wrong table entry shows only for inputs that index it.", "anchors": ["lib/bpakcrc.c:bpak_crc32", "lib/id.c:bpak_id"]}
{"id": "C02", "title": "Hash-tree part id is derivable from the part id alone", "statement": "For every part name s, the id computed by bpak_get_hash_tree_id from bpak_id(s) equals bpak_id(s ++ \"-hash-tree\"), and bpak_id_to_string-level name building agrees with it, so a verifier that only knows the numeric id finds the tree part the packer named.", "quantifier": "every NUL-free byte string name", "why_tests_cant": "Holds for all names only by algebra of the CRC, not by samples.", "anchors": ["lib/utils.c", "lib/id.c", "lib/merkle.c", "lib/verify.c"]}
{"id": "C03", "title": "Metadata lookup is a first-match search", "statement": "bpak_get_meta(hdr,id,ref) returns OK exactly when some slot carries that id and ref and then returns the lowest such slot; otherwise -BPAK_NOT_FOUND. bpak_get_meta_anyref likewise, ignoring ref. Lookups never change the header.", "quantifier": "every header content, every id and ref", "why_tests_cant": "32 slots x 2^64 (id,ref) contents.", "anchors": ["lib/bpak.c:bpak_get_meta_int", "lib/bpak.c:bpak_get_meta", "lib/bpak.c:bpak_get_meta_anyref"]}
{"id": "C04", "title": "Successful bpak_add_meta adds exactly one retrievable entry", "statement": "When bpak_add_meta returns OK for a nonzero id on a header reached through the API, a subsequent bpak_get_meta with the same id/ref finds the entry with the requested size; every other lookup result, all parts and all metadata bytes are unchanged; and the new byte range lies within the metadata area, is 8-byte aligned and overlaps no existing entry's range.", "quantifier": "every header reachable by successful API calls, every id, ref, size", "why_tests_cant": "Depends on the whole prior history of sizes and slots.", "anchors": ["lib/bpak.c:bpak_add_meta", "lib/bpak.c:bpak_get_meta"]}
{"id": "C05", "title": "Metadata ranges never overlap over any history", "statement": "After any sequence of successful bpak_add_meta and bpak_del_meta calls starting from bpak_init_header, the entries form a gap-free prefix of the table, have pairwise distinct (id,ref), and their byte ranges are 8-aligned, in bounds and pairwise disjoint.", "quantifier": "every finite sequence of operations", "why_tests_cant": "Unbounded histories; corruptions need specific size sequences.", "anchors": ["lib/bpak.c:bpak_add_meta", "lib/bpak.c:bpak_del_meta", "lib/bpak.c:bpak_init_header"]}
{"id": "C06", "title": "bpak_add_meta return code is exact", "statement": "bpak_add_meta returns -BPAK_EXISTS exactly when (id,ref) is already present, -BPAK_NO_SPACE_LEFT exactly when it is not present and either all 32 slots are used or the requested bytes do not fit after the existing entries, and OK otherwise.", "quantifier": "every reachable header, every id, ref and size", "why_tests_cant": "Boundary depends on sums of aligned sizes.", "anchors": ["lib/bpak.c:bpak_add_meta"]}
{"id": "C07", "title": "A failed bpak_add_meta leaves the header unchanged", "statement": "If bpak_add_meta returns an error, the header is byte-for-byte what it was. (Found false of the code for the does-not-fit case: the slot stays half-written and the header becomes invalid; the negation is proved, and the positive for the other error cases.)", "quantifier": "every header and argument", "why_tests_cant": "Needs the exact out-of-space boundary.", "anchors": ["lib/bpak.c:bpak_add_meta"]}
{"id": "C08", "title": "bpak_del_meta removes one entry and preserves all others", "statement": "After bpak_del_meta of an entry, lookup of it fails, every other entry is still found with the same size, part reference and the same bytes of content, and order is preserved. (Found false of the code when a later entry is larger than the deleted one: its moved bytes are partly zeroed; negation proved; positive proved when no later entry exceeds the aligned deleted size.)", "quantifier": "every reachable header, every entry deleted", "why_tests_cant": "Content corruption needs a size relation between entries that simple tests miss.", "anchors": ["lib/bpak.c:bpak_del_meta"]}
{"id": "C09", "title": "bpak_del_meta touches only the metadata table", "statement": "bpak_del_meta never writes outside the metadata slot array and the metadata byte area. (Found false: with all 32 slots in use it clears 16 bytes past the slot array, in the first part header; negation proved; positive proved for fewer than 32 entries.)", "quantifier": "every reachable header, every entry", "why_tests_cant": "Only a completely full table shows it.", "anchors": ["lib/bpak.c:bpak_del_meta"]}
{"id": "C10", "title": "Part table lookup/insert", "statement": "bpak_add_part returns OK iff the id is absent from the used prefix and a slot is free, -BPAK_EXISTS iff present, -BPAK_NO_SPACE_LEFT iff absent and all 32 used; on OK bpak_get_part finds it and all other lookups, metadata and existing part headers are unchanged; on failure nothing changes. Ids stay distinct over every history of add/del.", "quantifier": "every reachable header, every nonzero id, every history", "why_tests_cant": "Unbounded histories.", "anchors": ["lib/bpak.c:bpak_add_part", "lib/bpak.c:bpak_get_part"]}
{"id": "C11", "title": "bpak_del_part removes exactly one part and keeps order", "statement": "Deleting a part at index i of the used prefix yields the part list with that element erased, remaining slots zero, for every table including a full one; nothing else in the header changes.", "quantifier": "every part table, every index", "why_tests_cant": "All fill levels and positions.", "anchors": ["lib/bpak.c:bpak_del_part"]}
{"id": "C12", "title": "Part data ranges tile the file", "statement": "For every header whose sizes do not overflow 64 bits, bpak_part_offset places the first part at 4096 and each next one right after the previous part's stored bytes, so the stored byte ranges of distinct parts are pairwise disjoint, do not overlap the header, and their order is table order.", "quantifier": "every part table", "why_tests_cant": "Arithmetic over unbounded sizes and flags.", "anchors": ["lib/bpak.c:bpak_part_offset", "lib/bpak.c:bpak_part_size"]}
{"id": "C13", "title": "bpak_valid_header decides its documented predicate", "statement": "bpak_valid_header returns OK exactly when the magic matches, every listed part satisfies the alignment rule, and every metadata entry lies within the metadata area; otherwise the code names the first violated rule. An accepted header's listed metadata ranges are in bounds.", "quantifier": "every 4096-byte header", "why_tests_cant": "2^32768 headers.", "anchors": ["lib/bpak.c:bpak_valid_header"]}
{"id": "C14", "title": "Headers built through the API stay valid", "statement": "bpak_init_header produces a valid empty header, and any history of successful add/del of metadata and parts keeps bpak_valid_header returning OK provided part sizes are set to aligned values.", "quantifier": "every finite history", "why_tests_cant": "Unbounded histories.", "anchors": ["lib/bpak.c:bpak_init_header", "lib/bpak.c:bpak_valid_header"]}
{"id": "C15", "title": "Header image round trip", "statement": "Every header is exactly 4096 bytes on disk; writing then reading it back gives the same header, and reading any 4096 bytes and writing them back gives the same bytes; each field sits at its documented offset.", "quantifier": "every header, every 4096-byte image", "why_tests_cant": "2^32768 images.", "anchors": ["include/bpak/bpak.h:struct bpak_header", "lib/pkg.c:bpak_pkg_write_header", "lib/pkg.c:bpak_pkg_open"]}
{"id": "C16", "title": "bpak_copyz_signature extracts and blanks the signature", "statement": "When the caller's buffer is large enough the signature bytes are copied, the length reported, and the header afterwards is the header with signature and size zeroed and nothing else changed; otherwise -BPAK_SIZE_ERROR and no bytes written beyond the caller's buffer.", "quantifier": "every header, every buffer size", "why_tests_cant": "Includes signature_sz values larger than the array.", "anchors": ["lib/bpak.c:bpak_copyz_signature"]}
{"id": "C17", "title": "Header hash covers everything but the signature", "statement": "The bytes hashed by bpak_verify_compute_header_hash are the header image with signature and signature size zeroed: two headers differing only there hash the same bytes, and two headers hashing the same bytes are equal everywhere else.", "quantifier": "every pair of headers", "why_tests_cant": "Every field of every header.", "anchors": ["lib/verify.c:bpak_verify_compute_header_hash"]}
{"id": "C18", "title": "bpak_bin2hex output and bounds", "statement": "On success the output is the two-digit lower-case hex of each input byte in order followed by NUL, and the function never writes beyond the stated buffer size. (Content proved; the bound is false: witness proved, and the safe precondition proved.)", "quantifier": "every byte string, every buffer size", "why_tests_cant": "Buffer-size boundary.", "anchors": ["lib/utils.c:bpak_bin2hex"]}
{"id": "C19", "title": "UUID text round trip", "statement": "uuid_parse(uuid_unparse(u)) succeeds and gives u for every 16-byte UUID, and uuid_parse accepts exactly 36-character strings with dashes at 8,13,18,23 and hex digits elsewhere.", "quantifier": "every UUID, every string", "why_tests_cant": "2^128 UUIDs.", "anchors": ["ext/uuid/parse.c", "ext/uuid/unparse.c", "ext/uuid/pack.c", "ext/uuid/unpack.c"]}
{"id": "C20", "title": "Patch integer coding round trip", "statement": "The 8-byte sign-magnitude integer written by the diff encoder is read back unchanged by the patch decoder for every value of magnitude below 2^63, and every 8-byte pattern decodes to a value in that range.", "quantifier": "every 64-bit value", "why_tests_cant": "2^64 values.", "anchors": ["lib/bsdiff.c:offtout", "lib/bspatch.c:offtin"]}
{"id": "C21", "title": "Patch application does not depend on input chunking", "statement": "For every patch stream, every origin and every way of splitting the patch bytes into successive bpak_bspatch_write calls, the bytes written, the final return code and the final output size are the same as with one call.", "quantifier": "every byte string, every origin, every split into chunks", "why_tests_cant": "Exponential in length.", "anchors": ["lib/bspatch.c:bspatch_write", "lib/bspatch.c:bpak_bspatch_write"]}
{"id": "C22", "title": "Patch application computes the bsdiff semantics", "statement": "For every well-formed patch (list of control/diff/extra records whose origin reads are in range) the decoder outputs, for each record, origin bytes plus diff bytes modulo 256 and then the extra bytes, seeking as told; output is written contiguously from offset 0.", "quantifier": "every list of records, every origin", "why_tests_cant": "Unbounded records.", "anchors": ["lib/bspatch.c:bspatch_write"]}
{"id": "C23", "title": "bsdiff then bspatch restores the new data", "statement": "For every origin and every new file, and whatever the match search returns, the uncompressed patch emitted by bpak_bsdiff applied to origin by bpak_bspatch yields the new file.", "quantifier": "every pair of byte strings, every search oracle", "why_tests_cant": "Unbounded pairs.", "anchors": ["lib/bsdiff.c:bpak_bsdiff", "lib/bsdiff.c:write_diff_extra_and_adjustment", "lib/bspatch.c"]}
{"id": "C24", "title": "Heatshrink decoding does not depend on chunking", "statement": "For every compressed byte string, every split into sink/poll calls with any nonzero output sizes gives the same decompressed stream.", "quantifier": "every byte string, every schedule of sink and poll sizes", "why_tests_cant": "Exponential schedules.", "anchors": ["lib/heatshrink/heatshrink_decoder.c"]}
{"id": "C25", "title": "Heatshrink compress/decompress round trip", "statement": "For every byte string, encoding (with any sink/poll schedule, finish) and then decoding yields the original.", "quantifier": "every byte string, every schedule", "why_tests_cant": "Unbounded.", "anchors": ["lib/heatshrink/heatshrink_encoder.c", "lib/heatshrink/heatshrink_decoder.c"]}
{"id": "C26", "title": "Compressed delta round trip", "statement": "The heatshrink-compressed patch made by bpak_bsdiff decoded through bpak_bspatch's heatshrink path restores the new file.", "quantifier": "every pair of byte strings", "why_tests_cant": "Composition of two unbounded state machines.", "anchors": ["lib/bsdiff.c:hs_compressor_write", "lib/bspatch.c:bspatch_hs_write"]}
{"id": "C27", "title": "Merkle tree size is the exact tree size", "statement": "bpak_merkle_compute_size returns the sum of 4 KiB-padded level sizes for each supported input length, and every level laid out by bpak_merkle_init fits disjointly in that size; the two agree on which lengths are supported. (Agreement is false at 4 levels: negation proved.)", "quantifier": "every input length", "why_tests_cant": "64-bit range.", "anchors": ["lib/merkle.c:bpak_merkle_compute_size", "lib/merkle.c:bpak_merkle_init"]}
{"id": "C28", "title": "Merkle tree does not depend on write chunking", "statement": "The tree and root computed by write_chunk/finish are the same for every way of splitting the input into chunks.", "quantifier": "every input, every split", "why_tests_cant": "Exponential.", "anchors": ["lib/merkle.c:bpak_merkle_write_chunk"]}
{"id": "C29", "title": "Merkle root is the salted hash tree root", "statement": "For every input (multiple of 4096, supported length), the written tree's level i holds the salted hash of each 4 KiB block of level i-1 zero-padded, and the root is the salted hash of the top block.", "quantifier": "every input, every hash function", "why_tests_cant": "Unbounded inputs.", "anchors": ["lib/merkle.c:bpak_merkle_finish", "lib/merkle.c:bpak_merkle_write_chunk"]}
{"id": "C30", "title": "Merkle verification accepts exactly matching trees", "statement": "bpak_verify merkle check returns OK iff the recomputed tree equals the stored tree bytes and the recomputed root equals the stored root hash; the error code names which differed.", "quantifier": "every stored tree, root and data", "why_tests_cant": "All corruptions.", "anchors": ["lib/verify.c:bpak_verify_merkle_tree"]}
{"id": "C31", "title": "Payload hash covers exactly the non-excluded parts", "statement": "bpak_verify_compute_payload_hash hashes, in table order, the stored bytes of every part without the exclude flag and nothing else, independent of read sizes.", "quantifier": "every header, every payload, every hash", "why_tests_cant": "All flag combinations and contents.", "anchors": ["lib/verify.c:bpak_verify_compute_payload_hash"]}
{"id": "C32", "title": "Payload verification detects payload changes", "statement": "bpak_verify_payload returns OK only if the payload hash in the header equals the computed hash and every merkle part verifies; a change to hashed bytes is accepted only on hash collision.", "quantifier": "every package", "why_tests_cant": "All corruptions.", "anchors": ["lib/verify.c:bpak_verify_payload"]}
{"id": "C33", "title": "Sign then verify", "statement": "A package signed by bpak_pkg_sign with a key verifies by bpak_pkg_verify with the matching public key, for every package content, given a correct signature scheme.", "quantifier": "every package and key pair", "why_tests_cant": "Unbounded contents.", "anchors": ["lib/pkg_sign.c:bpak_pkg_sign", "lib/pkg_verify.c:bpak_pkg_verify"]}
{"id": "C34", "title": "Verification detects header tampering", "statement": "If bpak_pkg_verify accepts two packages with the same signature and key then their hashed header bytes are equal, or the hash collides, or the signature scheme was forged.", "quantifier": "every pair of packages", "why_tests_cant": "All tamperings.", "anchors": ["lib/pkg_verify.c:bpak_pkg_verify"]}
{"id": "C35", "title": "Add then extract returns the file", "statement": "After bpak_pkg_add_file succeeds on a package none of whose parts is transport-encoded, bpak_pkg_extract_file of that part yields exactly the added file's bytes and every other part's stored bytes are unchanged; it is refused exactly if the id is taken or the table is full, and then nothing changes. (Not so with transport-encoded parts: they cannot be extracted, and a part added behind one is written at another place than it is read from.)", "quantifier": "every package, every file", "why_tests_cant": "Unbounded.", "anchors": ["lib/pkg_create.c:bpak_pkg_add_file", "lib/pkg.c:bpak_pkg_extract_file"]}
{"id": "C36", "title": "Deleting a part preserves other parts", "statement": "After bpak_pkg_delete_part on a package whose file ends with its last part, each remaining part's stored bytes at its new offset are the old ones, the file is shortened accordingly and the metadata of the part is gone. (Not so: with trailing data, or asked to delete id 0, the call never returns; with a full metadata table it writes outside it.)", "quantifier": "every package, every part", "why_tests_cant": "Chunked moves over unbounded sizes.", "anchors": ["lib/pkg.c:bpak_pkg_delete_part"]}
{"id": "C37", "title": "Package size accounting", "statement": "bpak_pkg_size / bpak_pkg_installed_size equal the stated sums for every header.", "quantifier": "every header", "why_tests_cant": "64-bit arithmetic.", "anchors": ["lib/pkg.c:bpak_pkg_size", "lib/pkg.c:bpak_pkg_installed_size"]}
{"id": "C38", "title": "Transport encode/decode round trip", "statement": "A package whose parts are copied, sent as (compressed) deltas or rebuilt hash trees can be transport-encoded against an origin with the same package id, and decoding the result against the same origin into a new file reproduces the original header and file byte for byte. (Found false when the package id lies at different places in the two headers, and for a package without parts; negations proved.)", "quantifier": "every package with any transport metadata, every origin, every match search", "why_tests_cant": "Composition of many unbounded stages.", "anchors": ["lib/transport_encode.c", "lib/transport_decode.c", "lib/pkg.c:bpak_pkg_transport_decode"]}
{"id": "C39", "title": "Transport decode enforces the declared size", "statement": "bpak_transport_decode_finish returns OK only if exactly the declared number of bytes (size plus padding) was produced at the part's place in the output; decoding a whole package leaves a file that ends exactly where the last part ends. (Found false for parts that are merely copied when the streaming API is used directly; negation proved.)", "quantifier": "every decoder state, every stream of chunks, every input file", "why_tests_cant": "Any stream.", "anchors": ["lib/transport_decode.c:bpak_transport_decode_finish"]}
{"id": "C40", "title": "Delta update refuses a foreign origin", "statement": "Transport encoding and decoding with an origin whose package UUID differs return -BPAK_PACKAGE_UUID_MISMATCH and do nothing. (Encode proved, but a missing UUID goes through a null pointer; decode found false: it compares the origin's id with itself; negation proved.)", "quantifier": "every pair of headers", "why_tests_cant": "All UUID pairs and metadata offsets.", "anchors": ["lib/transport_decode.c:bpak_transport_decode_set_origin", "lib/transport_encode.c:bpak_transport_encode"]}
{"id": "C41", "title": "Keystore gives out keys only when verified", "statement": "bpak_keystore_get returns a key only if the keystore is marked verified and the id matches, and returns the first match.", "quantifier": "every keystore, every id", "why_tests_cant": "All contents.", "anchors": ["lib/keystore.c:bpak_keystore_get"]}
{"id": "C42", "title": "Allocator override is all-or-nothing", "statement": "bpak_set_calloc_free with a NULL function changes nothing and fails; otherwise both hooks are replaced, so allocation and release always use a matched pair.", "quantifier": "every history of calls", "why_tests_cant": "Unbounded histories.", "anchors": ["lib/mem.c"]}
{"id": "C43", "title": "Every result code has a distinct description", "statement": "bpak_error_string returns a distinct non-default text for each defined code, and the default text exactly for undefined ones.", "quantifier": "every int", "why_tests_cant": "2^32 ints.", "anchors": ["lib/bpak.c:bpak_error_string"]}
{"id": "C44", "title": "Transport metadata attach", "statement": "bpak_add_transport_meta adds the encode/decode algorithm pair for a part such that lookups by that part find exactly them.", "quantifier": "every reachable header, every ids", "why_tests_cant": "All histories.", "anchors": ["lib/bpak.c:bpak_add_transport_meta"]}
{"id": "C45", "title": "Patch decoder is memory safe on arbitrary input", "statement": "For every byte string given to bpak_bspatch_write the decoder never reads or writes outside its buffers. (Found false for negative control lengths: witness proved; safe class proved.)", "quantifier": "every byte string, every chunking", "why_tests_cant": "Adversarial inputs.", "anchors": ["lib/bspatch.c:bspatch_write"]}
{"id": "C46", "title": "What is left of a truncated patch", "statement": "Of a patch stream cut anywhere, the output is a prefix of the whole output and the size reported at the end is that of the prefix, so that a caller who compares it with the expected size never accepts a wrong result. The decoder itself does not report the truncation.", "quantifier": "every patch and cut", "why_tests_cant": "All truncations.", "anchors": ["lib/bspatch.c:bpak_bspatch_final", "lib/transport_decode.c:bpak_transport_decode_finish"]}
{"id": "C47", "title": "Delete-all empties the package", "statement": "bpak_pkg_delete_all_parts removes every part and the metadata tied to it, keeps the keys, order and sizes of all other metadata (and their contents, unless cut as in C08), and terminates, for every package with a free metadata slot. (With a full metadata table it writes outside the table.)", "quantifier": "every package", "why_tests_cant": "All table fillings.", "anchors": ["lib/pkg.c:bpak_pkg_delete_all_parts"]}
{"id": "C48", "title": "Added parts are aligned", "statement": "Every part added by bpak_pkg_add_file/_with_merkle_tree/_key has size+pad divisible by 512 with pad < 512, so later headers stay valid.", "quantifier": "every file size", "why_tests_cant": "64-bit sizes.", "anchors": ["lib/pkg_create.c"]}
{"id": "C49", "title": "Raw signature write respects the signature area", "statement": "bpak_pkg_write_raw_signature of at most 512 bytes stores the bytes and their number in the header and the file, touching nothing else. (The bound is not enforced: longer signatures overrun the array.)", "quantifier": "every length", "why_tests_cant": "Boundary at 512.", "anchors": ["lib/pkg.c:bpak_pkg_write_raw_signature"]}
{"id": "C50", "title": "Heatshrink decoder is memory safe on arbitrary input", "statement": "For every byte string and schedule every buffer index used by the decoder is in range and each poll writes at most the output space given.", "quantifier": "every byte string, every schedule", "why_tests_cant": "Adversarial inputs.", "anchors": ["lib/heatshrink/heatshrink_decoder.c"]}
{"id": "C51", "title": "Patch decoder terminates", "statement": "Every bpak_bspatch_write call on a non-empty chunk returns, whatever the bytes and whatever was fed before.", "quantifier": "every byte string, every history of chunks", "why_tests_cant": "Non-termination cannot be observed by finite testing of sampled inputs.", "anchors": ["lib/bspatch.c:bspatch_write"]}
{"id": "C52", "title": "Printed id names are right", "statement": "A name bpak_id_to_string prints for an id is a name whose bpak_id is that id, and two ids never print alike.", "quantifier": "every 32-bit id", "why_tests_cant": "2^32 ids.", "anchors": ["lib/utils.c:bpak_id_to_string"]}
{"id": "C53", "title": "A part is hashed where it is read", "statement": "The bytes the payload hash covers for a part are the bytes at the offset bpak_part_offset reports for it, so that hashing covers what extraction returns. (False for part tables with unused slots in the middle, which bpak_valid_header accepts: witness; holds for tables built by the API.)", "quantifier": "every header and payload", "why_tests_cant": "tests use headers built by the tool, never hand-made tables", "anchors": ["lib/verify.c:bpak_verify_compute_payload_hash", "lib/bpak.c:bpak_part_offset", "lib/bpak.c:bpak_valid_header"]}
{"id": "C54", "title": "Payload verification stays inside the header", "statement": "bpak_verify_payload reads no metadata outside the header. (False when a root-hash or salt entry is shorter than 32 bytes near the end of the metadata area: witness; holds otherwise.)", "quantifier": "every header, every payload", "why_tests_cant": "needs a hostile header; no test has one", "anchors": ["lib/verify.c:bpak_verify_payload"]}
{"id": "C55", "title": "Part digest is the digest of the part's data", "statement": "bpak_pkg_part_sha256 gives the SHA-256 of the part's stored data without padding, or the specific error, for every package.", "quantifier": "every header, file, part id, buffer length", "why_tests_cant": "all sizes and chunk boundaries", "anchors": ["lib/pkg_verify.c:bpak_pkg_part_sha256"]}
{"id": "C56", "title": "Opening a package", "statement": "bpak_pkg_open on a file of at least 4096 bytes succeeds exactly when its first 4096 bytes are a valid header and never touches the file; on a new empty file it creates a valid empty package. (Should refuse non-empty shorter files: found false, it appends a header; proved for every such file.)", "quantifier": "every file content", "why_tests_cant": "all contents and lengths", "anchors": ["lib/pkg.c:bpak_pkg_open"]}
{"id": "C57", "title": "A crash while adding a part keeps the old package", "statement": "If bpak_pkg_add_file is interrupted at any point before the header is rewritten, also in the middle of a write, the file still opens as the old package with all its parts.", "quantifier": "every package, every file added, every crash point", "why_tests_cant": "crash points cannot be enumerated by tests", "anchors": ["lib/pkg_create.c:bpak_pkg_add_file"]}
{"id": "C58", "title": "Adding a file terminates", "statement": "bpak_pkg_add_file returns. (False if the input file shrinks while it is read: proved it then never returns; proved it returns for unchanged inputs.)", "quantifier": "every package and input, every interleaving with a writer of the input", "why_tests_cant": "non-termination, races", "anchors": ["lib/pkg_create.c:bpak_pkg_add_file"]}
{"id": "C59", "title": "Adding a key pads with zeros", "statement": "bpak_pkg_add_key writes the key and zero padding. (False: the padding is read from a one-byte variable, undefined behaviour for every key whose size leaves two or more bytes of padding.)", "quantifier": "every package, every key", "why_tests_cant": "out-of-bounds reads go unnoticed in tests", "anchors": ["lib/pkg_create.c:bpak_pkg_add_key"]}
{"id": "C60", "title": "Verification stays inside the signature array", "statement": "bpak_pkg_verify hands no memory beyond the 512-byte signature array to the signature function. (False for every header with signature_sz above 512, which bpak_valid_header accepts.)", "quantifier": "every header, every key", "why_tests_cant": "needs hostile headers", "anchors": ["lib/pkg_verify.c:bpak_pkg_verify"]}
{"id": "C61", "title": "A history of package calls leaves exactly the expected files", "statement": "Starting from a new package, after any sequence of successful calls that add files, delete parts (with or without their metadata), delete all parts, edit metadata or key ids, sign, or close and reopen, the file is a valid package identical to the one in memory, its payload hash is right, and it holds exactly the files that were added and not deleted, in order: extracting each gives back the bytes that were added and extracting any other id reports not-found.", "quantifier": "all finite sequences of package calls, all file contents, ids and flags", "why_tests_cant": "The interplay of calls depends on the whole history; tests exercise a handful of short ones.", "anchors": ["lib/pkg.c:bpak_pkg_open", "lib/pkg_create.c:bpak_pkg_add_file", "lib/pkg.c:bpak_pkg_delete_part", "lib/pkg.c:bpak_pkg_extract_file", "lib/pkg_sign.c:bpak_pkg_sign"]}
{"id": "C62", "title": "Crash while deleting a part", "statement": "If the process dies while a part is being deleted, the file on disk opens as a package that holds either the old parts or the new ones, each with its right content.", "quantifier": "all packages, all parts, all crash points between two writes", "why_tests_cant": "Crash points between writes are not exercised by unit tests.", "anchors": ["lib/pkg.c:bpak_pkg_delete_part", "lib/pkg.c:bpak_pkg_write_header"]}
{"id": "C63", "title": "Compression expands data by at most one bit per byte", "statement": "Compressing a delta (any data, in any buffers) produces at most 9 bits per input byte, rounded up to whole bytes.", "quantifier": "every sequence of buffers", "why_tests_cant": "All data, all splits; the worst case of a search-based compressor.", "anchors": ["lib/heatshrink/heatshrink_encoder.c", "lib/bsdiff.c:hs_compressor_write"]}
{"id": "C64", "title": "Delta size is linear in the new data", "statement": "A delta has at most 25 bytes per byte of new data plus 24 (29 and 28 if compressed), whatever the origin and whatever matches are found, so the encoder's output cannot blow up.", "quantifier": "every origin, new file and match search", "why_tests_cant": "Worst case over all file pairs.", "anchors": ["lib/bsdiff.c:bpak_bsdiff", "lib/bsdiff.c:write_diff_extra_and_adjustment"]}
{"id": "C65", "title": "Adding a file with its hash tree: end-to-end", "statement": "bpak_pkg_add_file_with_merkle_tree succeeds exactly when there is room (part id and tree id new, two part slots, two metadata slots of 32 bytes, no salt or root recorded for the part) and the file is a positive multiple of 4096 bytes of at most 8 GiB; then the package holds the old parts unchanged, the file, and a part with the file's dm-verity hash tree, the old metadata unchanged plus the salt and the root hash, the payload hash is right, the header on disk is the one in memory, and all hash trees verify.", "quantifier": "every well-formed package, part id, flags without the transport flag, file content, salt and hash function", "why_tests_cant": "the number of blocks, tree levels, parts and metadata entries is unbounded in combination; tests try a handful of file sizes", "anchors": ["lib/pkg_create.c: bpak_pkg_add_file_with_merkle_tree", "lib/merkle.c: bpak_merkle_compute_size, bpak_merkle_init, bpak_merkle_write_chunk, bpak_merkle_done"]}
{"id": "C66", "title": "A failing add-with-tree leaves the package as it was", "statement": "If bpak_pkg_add_file_with_merkle_tree reports an error, the package (in memory and on disk) is unchanged. (Disagreement: false. A length that is not a multiple of 4096, an empty file, or a taken tree id leave the file added without a tree; more than 8 GiB is undefined behaviour.)", "quantifier": "every well-formed package, part id, flags, file content and salt", "why_tests_cant": "failures depend on content length and table state; each has its own partial effect on file and header", "anchors": ["lib/pkg_create.c: bpak_pkg_add_file_with_merkle_tree"]}
{"id": "C67", "title": "Crash while adding a file with its hash tree", "statement": "If the process is killed at any point (also in the middle of a write) while a file with its hash tree is being added, the file on disk opens as the old package, as the old package plus the file, or as the complete package; never as something else.", "quantifier": "every well-formed package with room, file content, salt and crash point", "why_tests_cant": "crash points inside writes cannot be enumerated by tests", "anchors": ["lib/pkg_create.c: bpak_pkg_add_file_with_merkle_tree, bpak_pkg_add_file", "lib/pkg.c: bpak_pkg_write_header"]}
{"id": "C68", "title": "Every package built with files, hash trees, metadata and keys verifies after signing", "statement": "Over every sequence of successful building calls (add file, add file with hash tree, add or fill metadata other than salts and roots, set key ids, sign, close and reopen) starting from a new file: the package holds exactly the files and trees added, in order, each can be extracted bit by bit, every hash tree checks against its recorded root and salt, header on disk, in memory and payload hash agree; and if the last call is signing, bpak_pkg_verify accepts with the matching public key, also after reopening the file.", "quantifier": "every finite sequence of building calls, all file contents, salts, keys, hash and signature functions", "why_tests_cant": "histories are unbounded; interactions between metadata layout, part table and trees depend on the whole history", "anchors": ["lib/pkg_create.c: bpak_pkg_add_file, bpak_pkg_add_file_with_merkle_tree", "lib/pkg_sign.c: bpak_pkg_sign", "lib/pkg_verify.c: bpak_pkg_verify", "lib/pkg.c: bpak_pkg_open, bpak_pkg_write_header", "lib/bpak.c: bpak_add_meta"]}
{"id": "C69", "title": "Rendering a metadata entry as text stays inside the header and inside the caller's buffer", "statement": "For every header accepted by bpak_valid_header, every entry in it and every buffer size n, bpak_meta_to_string reads only bytes of the header's metadata area and writes at most n bytes. This is false of the code as it stands: an entry shorter than its kind needs, at the end of the area, is read past the end (exactly when the bytes its kind needs do not fit), and a Merkle salt or root hash overruns a 64-byte buffer by one byte. What holds: entries at least as long as their kind needs are read inside, and nothing but salts and root hashes in buffers under 65 bytes is written outside.", "quantifier": "every header, every metadata entry in it (id, offset, size), every buffer size", "why_tests_cant": "the identifiers, offsets, sizes and buffer sizes form an unbounded combination; overruns by one byte go unnoticed in a test run", "anchors": ["lib/utils.c:bpak_meta_to_string", "lib/utils.c:bpak_bin2hex", "src/compare.c", "src/show.c"]}
{"id": "C70", "title": "The text of a metadata entry says what the entry holds", "statement": "With a buffer of at least 65 bytes, bpak_meta_to_string succeeds for every entry that holds the bytes its kind needs and writes a NUL-terminated text: for key and keystore ids a hexadecimal number whose value is the stored id, for the keystore provider the same behind 0x, for the package id the UUID text, for a transport entry two 8-digit numbers that are the encoder and decoder ids, for salt and root hash their 64 digits, for a load address at least 8 digits of its value, and the empty text for other kinds. A version entry is copied as stored. That a success leaves a terminated string in the buffer is false: a version entry gets no NUL, and a package id in a buffer under 37 bytes writes nothing and reports success.", "quantifier": "every header, every entry, every value stored in it, every buffer size of at least 65", "why_tests_cant": "tests render a few values; the claim is about every stored value and every size", "anchors": ["lib/utils.c:bpak_meta_to_string", "lib/uuid.c", "lib/utils.c:bpak_uuid_to_string"]}
{"id": "C71", "title": "A key loaded from a keystore is the key stored under the asked id in the asked keystore", "statement": "Whatever file it is given, bpak_keystore_load_key_from_file hands out a key only if the file has a valid header that passes the caller's check, its keystore-provider-id entry equals the asked keystore id and it has a part of the asked key id; the key is what the parser makes of exactly that part's stored bytes without padding, and carries the asked id. From a package made by any history of package calls, every key put in comes out, a wrong keystore id gives the mismatch code, and an absent key or provider entry the not-found code (proved for keys of at most 512 bytes, see C72).", "quantifier": "every file content; every history of calls that builds the keystore; every keystore id, key id, check callback and key parser", "why_tests_cant": "tests load a few keys from a few keystores; the claim is about every file and every history", "anchors": ["lib/keystore_load_from_file.c:bpak_keystore_load_key_from_file", "include/bpak/keystore.h", "lib/bpak.c:bpak_get_meta", "lib/bpak.c:bpak_get_part"]}
{"id": "C72", "title": "Loading a key from a keystore stays inside its buffers", "statement": "For every file, bpak_keystore_load_key_from_file accesses nothing outside its key buffer and the header. This is false of the code: the part's length is not compared with the 512-byte stack buffer, so that from every keystore that holds a longer key (RSA 4096 has 550 bytes) loading that key overruns it. It holds of files whose parts have at most 512 bytes and whose provider slots designate four bytes inside the metadata area.", "quantifier": "every file content, every key id", "why_tests_cant": "an overrun needs not show in a test run, and no test has a key that long", "anchors": ["lib/keystore_load_from_file.c:bpak_keystore_load_key_from_file"]}
{"id": "C73", "title": "Tampering with a key in a keystore is noticed", "statement": "If the bytes of a key in a keystore file are changed after it was built (and signed), bpak_keystore_load_key_from_file does not hand out the changed key. This is false of the code: neither payload hash nor signature is looked at; for every keystore made by any history and every replacement of a key's bytes by others of the same length the changed key is handed out. What holds: if the caller verifies the payload itself, two files with the same header give the same key unless the hash has a collision.", "quantifier": "every history of calls that builds the keystore, every change of a key's bytes, every hash function", "why_tests_cant": "the claim is about every modified file", "anchors": ["lib/keystore_load_from_file.c:bpak_keystore_load_key_from_file", "lib/verify.c:bpak_verify_payload"]}
{"id": "C74", "title": "bpak compare marks each metadata entry and part as its legend says", "statement": "For every two packages made by any histories of calls, bpak compare prints one row for each metadata entry and part of the first package, marked = if the second has the same (metadata content; part header and bytes), * if it has another, - if it has none, and then one row marked + for each that only the second has. This is false of the code: an entry missing in the second package makes it dereference NULL; an entry that became longer is marked =; a part only in the second package is marked -; a part that became shorter at the file's end ends it with a read error; the code returned does not tell whether there are differences. What holds: the marks are those of the legend (with - for + on parts) if each entry of the first is in the second with the same length, texts fit in the 64-byte buffer, and the second file is long enough.", "quantifier": "every pair of packages made by any histories of calls", "why_tests_cant": "tests compare two fixed packages; the claim is about all pairs", "anchors": ["src/compare.c:action_compare", "lib/bpak.c:bpak_get_meta", "include/bpak/bpak.h:bpak_get_meta_ptr"]}
{"id": "C75", "title": "bpak set --meta NAME --from-string TEXT changes that metadata entry and nothing else", "statement": "For every package made by any history of calls, every name of one of its metadata entries and every text, the command makes the entry's content the text with its NUL (zero filled if the entry is longer; moved to the end of the table and as long as the text if it is shorter) and leaves every other entry, every other header field and all parts as they were; if there is no room it fails and the file is untouched. This is false of the code: when the entry grows, later entries longer than the old one (rounded to 8) are cut, and with a full table of 32 entries the deletion reads past the table. What holds: both cases with the cut made explicit; in full if the text fits, or if no later entry is longer than the old one.", "quantifier": "every history of calls that makes the package, every name and every text", "why_tests_cant": "tests use a few names and texts; the claim is about every table layout", "anchors": ["src/set.c:action_set", "lib/bpak.c:bpak_del_meta", "lib/bpak.c:bpak_add_meta"]}
{"id": "C76", "title": "bpak set --encoder stores the value that the text denotes, or fails and changes nothing", "statement": "For every package made by any history and every entry: with encoder integer, an entry of 8 bytes and an integer in C notation (decimal, octal, hexadecimal, signed), the two's complement little-endian value is stored if it is in the range of a signed 64-bit number, and otherwise the command fails with the file untouched; with encoder id and an entry of 4 bytes the id of the text is stored; an entry of another size is refused, as is a text without digits. Not true of every text: trailing garbage is ignored, and numbers from 2^63 to 2^64-1 are refused.", "quantifier": "every history of calls, every entry, every text and integer", "why_tests_cant": "the claim is about all integers and their notations", "anchors": ["src/set.c:action_set", "include/bpak/bpak.h:bpak_get_meta_ptr"]}
{"id": "C77", "title": "Key and keystore ids given by name or number are set as given", "statement": "bpak set --key-id and --keystore-id set those of the two ids that are given and nothing else: a name stands for its bpak id, 0x followed by hexadecimal digits with a value below 2^32 for that number. Not true of all arguments: a name that begins with 0x is taken for a number, a number of 2^32 or more is cut, and both options are silently ignored if --meta is given as well.", "quantifier": "every history of calls, every argument", "why_tests_cant": "the claim is about every argument string", "anchors": ["src/main.c:bpak_get_id_for_name_or_ref", "src/set.c:action_set"]}
{"id": "C78", "title": "bpak add --meta adds one entry with the encoded content, or fails and changes nothing", "statement": "For every package made by any history of calls, every name (with a non-zero id), part reference and input: without encoder the content is the text with its NUL or the bytes of the file; with encoder uuid, integer or id it is the 16 bytes of the UUID, the 64-bit two's complement number (little-endian) or the 32-bit id that the text denotes. If the entry does not exist and there is a free slot and room, it is put at the end of the table, and every other entry, header field and part stays; in all other cases (entry exists, no slot, no room, text not a UUID or number, number out of range, unknown encoder, empty or missing file) the command reports it and the file is untouched. Not true of files over 1920 bytes: the first 1920 bytes are stored and success reported; with an encoder the buffer is read past its end.", "quantifier": "every history of calls, every name, reference, text and file content", "why_tests_cant": "tests use a few names and values; the claim is about every table and input", "anchors": ["src/add.c:action_add", "lib/bpak.c:bpak_add_meta", "ext/uuid/parse.c:uuid_parse"]}
{"id": "C79", "title": "bpak create makes an empty package of the chosen kinds, and only where it may", "statement": "With known names (or none) for hash and signature method, and no file there or overwriting forced or confirmed with Y, the file afterwards holds an empty package with exactly these kinds, no key ids, no signature and the right payload hash, whatever was in it before; all properties of call histories hold for it, for each of the three hash kinds. With an unknown name, or if the file exists and overwriting is neither forced nor confirmed, the command fails and the file is untouched.", "quantifier": "every name, every previous file content, every hash function, every history of calls afterwards", "why_tests_cant": "the claim is about every previous content and every later history", "anchors": ["src/create.c:action_create", "lib/pkg.c:bpak_pkg_open", "lib/bpak.c:bpak_init_header"]}
{"id": "C80", "title": "Signing with a key the tool never sees", "statement": "For every package an application built, `bpak show --binary-hash` prints a digest and `--hash` the same digest in lower-case hexadecimal; after `bpak sign --signature FILE`, `bpak verify --key` accepts the package exactly if the content of FILE is a signature of that digest under the key; the digest, the payload bytes and the files in the package stay the same. (Signature files of more than 512 bytes overflow the header instead of being refused; `--hash` prints uninitialised memory if the payload is cut short.)", "quantifier": "every building history (files, hash trees, metadata, ids, signatures, reopening in any order and number), every hash function of the right digest lengths, every signature scheme, every signature content of at most 512 bytes", "why_tests_cant": "tests sign a few packages with one key; the claim ranges over all packages and all (also wrong) signatures", "anchors": ["src/show.c: action_show", "src/sign.c: action_sign, action_verify", "lib/pkg.c: bpak_pkg_update_hash, bpak_pkg_write_raw_signature", "lib/pkg_verify.c: bpak_pkg_verify"]}
{"id": "C81", "title": "The report of bpak show is complete and warns exactly when the payload hash is wrong", "statement": "For every package made by API calls with SHA-256 or SHA-384 whose metadata entries are well-sized, `bpak show` succeeds; its tables have one row per metadata entry (id, size, name, part reference, and a text that says what the entry holds) and per part (the files the history left, with their sizes), in order; it prints the digest to sign and the payload digest; the warning is printed exactly if the digest of the payload in the file differs from the stored one. (Flaws: a SHA-512 package always overruns the text buffer by one byte; a version entry without NUL is printed with remains of the row above.)", "quantifier": "every history of package calls, every hash function of the right digest lengths, every overwritten payload", "why_tests_cant": "the rows depend on all entries and on what earlier rows left in the shared buffer; the warning on every payload byte", "anchors": ["src/show.c: action_show", "lib/utils.c: bpak_meta_to_string, bpak_bin2hex", "lib/pkg.c: bpak_pkg_update_hash"]}
{"id": "C82", "title": "bpak show --meta, --part and --part-hash answer about the named entry or part", "statement": "`bpak show --part NAME` reports the size of the file the history left under NAME (or its 0x number), `--part-hash NAME` the SHA-256 of exactly that file's bytes, `--meta NAME [--part NAME]` what the first matching entry holds; each reports an error if there is none.", "quantifier": "every history of package calls, every name with a non-zero id", "why_tests_cant": "which slot is found depends on the whole history of insertions and deletions", "anchors": ["src/show.c: action_show", "src/main.c: bpak_get_id_for_name_or_ref", "lib/pkg_verify.c: bpak_pkg_part_sha256"]}
{"id": "C83", "title": "bpak verify --keystore uses exactly the key the package names", "statement": "For every package that was built, given a key id and a keystore id, and signed, and every keystore archive made by a history of operations, `bpak verify --keystore` accepts the package exactly if the keystore's provider id is the keystore id in the package, the keystore holds a key under the key id in the package, and the package's signature is valid under that key; no other key of the keystore is ever used.", "quantifier": "Every build history ending in signing, every keystore history, every signature scheme, every key id and keystore id", "why_tests_cant": "Tests use one keystore with a couple of keys; the claim is about every keystore content and order of parts, including ids that nearly match.", "anchors": ["src/sign.c: action_verify", "lib/keystore_load_from_file.c: bpak_keystore_load_key_from_file", "lib/pkg_verify.c: bpak_pkg_verify"]}
{"id": "C84", "title": "Any session with the command line tool keeps a good package", "statement": "Start without a file and run any sequence of bpak create, add --part (plain, --encoder key, --encoder merkle), add --meta, set, delete, sign, write-raw-signature and transport --add on one file, some of which may fail. Whenever there is a file it opens, its header is valid, its stored payload hash is the hash of its payload, no part id occurs twice, and `bpak extract --part NAME` delivers exactly the content that the successful commands left under NAME's id, or reports that there is none. A failed command (other than a half-done --encoder merkle) leaves the file byte for byte as it was.", "quantifier": "Every finite sequence of command lines with every argument, file content, key, salt and signature scheme (names whose id is 0 and sizes beyond off_t excluded)", "why_tests_cant": "The number of command sequences is unbounded; tests run a few scripted ones, and a failing command in the middle is rarely among them.", "anchors": ["src/main.c: main", "src/create.c: action_create", "src/add.c: action_add", "src/set.c: action_set", "src/delete.c: action_delete", "src/sign.c: action_sign", "src/transport.c: action_transport", "src/extract.c: action_extract"]}
{"id": "C85", "title": "What goes in under a name comes out under the name", "statement": "After `bpak add --part NAME --from-file FILE` has succeeded, `bpak extract --part NAME` writes exactly FILE's bytes, whatever commands follow, until that part is deleted, all parts are deleted or the package is created anew; `bpak extract --meta NAME [--part-ref REF]` delivers the content of the entry with these ids or reports that there is none; `bpak extract` refuses unless exactly one of --part and --meta is given. (For names that start with 0x this is false: add hashes the name, extract and delete read it as a number.)", "quantifier": "Every session, every name, every file content, every later sequence of commands", "why_tests_cant": "Tests check one name right after adding it; the claim ranges over all names and everything that may happen in between.", "anchors": ["src/add.c: action_add", "src/extract.c: action_extract", "src/main.c: bpak_get_id_for_name_or_ref", "lib/pkg.c: bpak_pkg_extract_file"]}
{"id": "C86", "title": "bpak add --part: when it is refused, and what it changes", "statement": "On the package left by any sequence of earlier commands, `bpak add --part NAME --from-file FILE [--dont-hash]` fails and leaves the file untouched exactly if a part of that name exists or all 32 part slots are taken. Otherwise the new part comes last with the length of FILE, is kept out of the payload hash exactly if --dont-hash was given, and the other parts, all metadata and all other header fields stay as they were. With `--encoder merkle`, when it succeeds, the file and its hash tree come last (both with the flag) and the salt and root hash are the last metadata entries, bound to the part.", "quantifier": "Every sequence of earlier commands, every name, file content, flag and salt.", "why_tests_cant": "A test adds a few files to a few packages; the claim ranges over every package that any sequence of commands can leave behind.", "anchors": ["src/add.c: action_add", "lib/pkg_create.c: bpak_pkg_add_file, bpak_pkg_add_file_with_merkle_tree"]}
{"id": "C87", "title": "bpak delete: what goes and what stays", "statement": "On the package left by any sequence of earlier commands, `bpak delete --part NAME` of a name that is not there fails and changes nothing; otherwise that part goes, the other parts keep their order, attributes and content, and of the metadata the entries bound to the part go, or none with --keep-meta. `bpak delete --all` leaves a 4096 byte file without parts and keeps the metadata that is bound to no part, or all of it with --keep-meta. Other header fields except the payload hash stay. (Not covered: a full metadata table from which an entry must go, which is undefined in the code.)", "quantifier": "Every sequence of earlier commands, every name and flag.", "why_tests_cant": "Tests delete one part of a small package; the claim is about what stays, for every package and position.", "anchors": ["src/delete.c: action_delete", "lib/pkg.c: bpak_pkg_delete_part, bpak_pkg_delete_all_parts"]}
{"id": "C88", "title": "bpak transport --add: when it is refused, and what it writes", "statement": "On the package left by any sequence of earlier commands, `bpak transport --add [--part PART] --encoder E --decoder D` fails and leaves the file untouched exactly if PART already has a transport entry, all 32 metadata slots are taken, or the entry does not fit in the 1920 byte data area. Otherwise it adds one metadata entry bound to the part whose first bytes are the id of E and then the id of D, and parts, payload and all other header fields stay.", "quantifier": "Every sequence of earlier commands, every part name, encoder and decoder name.", "why_tests_cant": "The room left in the tables depends on the whole history of the package.", "anchors": ["src/transport.c: action_transport", "lib/bpak.c: bpak_add_transport_meta"]}
{"id": "C89", "title": "Python programs: the package always holds what the program put in it", "statement": "A program uses `bpak.Package` (mode 'w+' on a new file or 'r+' on one the tool wrote) and its `Part` and `Meta` objects: `add_file` (with or without hash tree), `add_key`, `add_meta`, assignments to `key_id`, `keystore_id`, `signature_kind`, `signature`, `Part.id`, `Meta.id`, `Meta.part_id_ref`, `Meta.raw_data`, `sign`, `digest`, `Part.delete`, `Meta.delete`, in any order, closing and reopening at will. Excluded are the calls C92-C94 show to be harmful, and files beyond the range of off_t. Then after every call the file opens and gives exactly the header in memory; the payload hash is right; `parts` lists the files the program added and did not delete, in order, under the ids it gave them last; `Part.read_data` gives each file back (and raises IOError for an empty one); `meta` and `raw_data` agree with the entries. A call that raises changes neither header nor file, and every call returns or raises.", "quantifier": "Every sequence of calls on a package that is new or was left by any session with the tool, closed and opened again at any point, within what the property excludes.", "why_tests_cant": "The state depends on the whole program; tests run a few programs.", "anchors": ["python/package.c", "python/part.c", "python/meta.c", "lib/pkg.c", "lib/pkg_create.c: bpak_pkg_add_file, bpak_pkg_add_file_with_merkle_tree, bpak_pkg_add_key"]}
{"id": "C90", "title": "Python: integer attributes of a package", "statement": "Assigning an integer from 0 to 2^64-1 to `key_id`, `keystore_id` (32 bit fields), `signature_kind` or `hash_kind` (8 bit fields) succeeds; the attribute then reads as that integer modulo 2^32 or 2^8, that one header field and nothing else changes, and the file holds it at once and opens again (for `hash_kind`: unless it becomes 0). Other integers raise OverflowError, other objects TypeError, and nothing changes. (The payload hash is not renewed after `hash_kind` is assigned. The range check on the ids of parts and entries never refuses anything below 2^64: ids are cut to 32 bits first.)", "quantifier": "Every sequence of calls on a package that is new or was left by any session with the tool, closed and opened again at any point, within what the property excludes. Every Python object as the value.", "why_tests_cant": "Every integer and every state of the package.", "anchors": ["python/package.c: package_set_key_id, package_set_keystore_id, package_set_hash_kind, package_set_signature_kind", "python/meta.c: meta_set_id, meta_set_part_id_ref", "python/part.c: part_set_id"]}
{"id": "C91", "title": "Python: raw_data and as_string of a metadata entry", "statement": "Assigning `bytes`, or ASCII `str` (stored with a NUL), no longer than the entry stores it and zeroes the rest of the entry; `raw_data` then gives exactly that, every other entry, part and header field stays, and the file holds it at once. Longer data raises ValueError and nothing changes; a key without an entry raises KeyError. `as_string` gives the bytes up to the first NUL, or raises if one is not ASCII; text without NULs that fits with its NUL comes back unchanged.", "quantifier": "Every sequence of calls on a package that is new or was left by any session with the tool, closed and opened again at any point, within what the property excludes. Every entry and every value.", "why_tests_cant": "The neighbours of an entry and its place depend on the history.", "anchors": ["python/meta.c: meta_get_rawdata, meta_set_rawdata, meta_as_string, meta_get_size"]}
{"id": "C92", "title": "Python: renaming parts and metadata entries", "statement": "Assigning a part an id other than 0 that no other part has: it is listed and read under the new id in its old place, everything else stays, the payload hash stays right and the file holds it at once. The same for id and part reference of a metadata entry. Assigning the id of an earlier part, or 0, is not refused: the former gives two parts with one id, of which only the earlier can be reached; the latter removes the part and all after it from the list.", "quantifier": "Every sequence of calls on a package that is new or was left by any session with the tool, closed and opened again at any point, within what the property excludes. Every part or entry and every integer.", "why_tests_cant": "Every state and every id.", "anchors": ["python/part.c: part_set_id", "python/meta.c: meta_set_id, meta_set_part_id_ref"]}
{"id": "C93", "title": "Python: add_meta", "statement": "`add_meta` with an existing key, or on 32 entries, raises and changes nothing. Otherwise, if the requested number of bytes is left, there is a new entry after all others with the given data (cut to the size), everything else stays and the file holds it at once. Wrong arguments raise and change nothing. Not so: an entry with a size larger than its data is not cleared (it shows bytes of deleted entries); an entry that does not fit raises but stays in the header in memory, which makes the file unreadable on the next write; data of 65536 bytes and more may pass the check, and is copied beyond the header.", "quantifier": "Every sequence of calls on a package that is new or was left by any session with the tool, closed and opened again at any point, within what the property excludes. Every id, reference, value and size.", "why_tests_cant": "The room left depends on the history; the bad cases need sizes tests do not try.", "anchors": ["python/package.c: package_add_meta", "lib/bpak.c: bpak_add_meta"]}
{"id": "C94", "title": "Python: the signature attribute and sign", "statement": "Assigning `bytes` of at most 512 bytes, or `None`, to `signature` stores them: reading the attribute gives them back (`None`: empty), nothing else changes, and the file holds it at once. Not so: longer signatures are copied beyond the header; a package whose signature length field is above 512 opens, and reading the attribute reads beyond the header; a `sign` that raises although the key was read wipes the signature in memory, and the next write of the header replaces the one in the file by zeros.", "quantifier": "Every sequence of calls on a package that is new or was left by any session with the tool, closed and opened again at any point, within what the property excludes. Every value, every key and signature scheme.", "why_tests_cant": "Every state, every signature, and files from elsewhere.", "anchors": ["python/package.c: package_get_signature, package_set_signature, package_sign", "lib/pkg.c: bpak_pkg_write_raw_signature", "lib/pkg_sign.c: bpak_pkg_sign"]}
{"id": "C95", "title": "Encoding a package that is encoded already", "statement": "A part whose transport flag is set is passed over by transport encoding without copying its bytes. So, if every part has a transport instruction: encoding a package whose parts are all marked as encoded succeeds and writes its header and nothing else, whatever the payload; and encoding the result of a successful encoding, with the same origin or none, again succeeds and keeps the header but not one byte of payload. The natural claims, that encoding keeps the payload or that encoding twice is encoding once, are false.", "quantifier": "Every package header reachable by API calls, every payload, every origin, every search function of the difference algorithm.", "why_tests_cant": "A test of one double encoding shows one loss; that the call always succeeds and always writes nothing but the header is a statement about all packages.", "anchors": ["lib/transport_encode.c: transport_encode_part, bpak_transport_encode", "lib/pkg.c: bpak_pkg_transport_encode"]}
{"id": "C96", "title": "The offset stored with each part", "statement": "After any session of commands, sequence of library calls or Python program on a package, the `offset` field stored with each part is where the library looks for the part's data. It is a multiple of 512, not before the end of the header, and the data ends within the file; no transport size is stored. A reader that seeks to the stored offsets and reads the stored sizes, as a boot loader or `bpak generate` does, gets exactly the files expected, in order.", "quantifier": "Every session, sequence of calls and program, with deletions, hash trees, renamed parts, failing commands; every content.", "why_tests_cant": "The offsets of all later parts change with every deletion; tests look at single histories.", "anchors": ["lib/pkg_create.c: bpak_pkg_add_file, bpak_pkg_add_file_with_merkle_tree, bpak_pkg_add_key", "lib/pkg.c: bpak_pkg_delete_part", "lib/bpak.c: bpak_part_offset"]}
{"id": "C97", "title": "bpak generate keystore", "statement": "For a keystore package with a `bpak-package` and a `keystore-provider-id` entry whose files are all public keys of a supported kind, of at most 4096 bytes, `bpak generate keystore` prints one key definition per file in order, with the part id, the file size, and kind and data as parsed from the file, under different symbols (C identifiers whenever the name has only letters, digits, underscores and dashes), then the keystore with its id, the number of keys and pointers to exactly these. Otherwise it fails with the code of the first bad file and prints no keystore; without the two entries it fails and prints nothing. Not so: `.size` is the size of the file, which is not the number of bytes in `.data` when the parser brings the key into another form. Whatever file is given: if the command succeeds, the file begins with a valid header, and the definitions printed are those of exactly the parts named there, each complete and a key of a supported kind.", "quantifier": "Every session that made the package, every name, every parser.", "why_tests_cant": "All packages, any number of keys at any position, and all parsers.", "anchors": ["src/generate.c: action_generate"]}
{"id": "C98", "title": "The keystore compiled from generated code", "statement": "`bpak_keystore_get` on the keystore compiled from the output of `bpak generate keystore` gives a key for an id exactly if loading from the package does, and the same key. Missing: keys above 512 bytes, for which loading from the package is undefined. Not so: the printed keystore is marked as verified, but nothing is verified; any payload under the same header is printed and marked in the same way.", "quantifier": "Every session that made the package, every id, every parser; every other payload.", "why_tests_cant": "Equality of two implementations on all packages and ids.", "anchors": ["src/generate.c: action_generate", "lib/keystore.c: bpak_keystore_get", "lib/keystore_load_from_file.c: bpak_keystore_load_key_from_file"]}
{"id": "C99", "title": "Sending packages with the transport command", "statement": "Two packages, the new one and the origin, each made by some session of commands, have the same 16-byte package id at the same place, and the origin has a part for every part of the new one. Then `bpak transport --encode` with the origin writes a file, and `bpak transport --decode` of that file with the same origin writes the new package's file again, byte for byte. The same holds for `transport_encode` and `transport_decode` of the Python module, there also without an origin if no part needs one. With another package id, `--encode` fails with the code for that. (Found: without `--origin`, the command reads an uninitialised variable for every package, even if no part needs an origin. And after `transport_decode` in Python the output object still holds the header it had before, which the next header write puts over the decoded one.)", "quantifier": "All pairs of sessions, so all contents, part lists, metadata and signatures; every match search of the delta encoder that answers within range; every use of the transport entries that makes sense.", "why_tests_cant": "The delta and the rebuilt trees depend on all bytes of both packages and on how both were made; tests try a few pairs.", "anchors": ["src/transport.c: action_transport", "lib/pkg.c: bpak_pkg_transport_encode, bpak_pkg_transport_decode", "python/python_wrapper.c: m_transport_encode, m_transport_decode"]}
{"id": "C100", "title": "LZMA-compressed deltas restore the new file", "statement": "Making an LZMA-compressed delta between any two files succeeds, and the delta, cut into any non-empty chunks and fed to the decoder with the same origin, makes it write exactly the new file; the finishing call returns its size. A delta that is cut short is accepted by the writes but reported by the finishing call as a decompressor error. Whatever bytes are fed to it, the decoder's write and finishing calls return (the loops around the LZMA library end).", "quantifier": "all origins and new files, all match searches that answer within range, all output offsets, all work buffer sizes, all ways of cutting the stream into chunks, all LZMA libraries that keep the promises of lzma_code", "why_tests_cant": "The tests compress a few small files with one version of liblzma and one chunk size; the claim depends on every split of the stream across input chunks, compressor output buffers and work buffers.", "anchors": ["lib/bsdiff.c:lzma_compressor_write", "lib/bsdiff.c:lzma_compressor_final", "lib/bsdiff.c:bpak_bsdiff", "lib/bspatch.c:bpak_bspatch_write", "lib/bspatch.c:bpak_bspatch_final"]}
{"id": "C101", "title": "Key files and keys in memory", "statement": "Loading a public or private key file succeeds exactly for keys of the four supported kinds (RSA-4096, and ECDSA on P-256, P-384, P-521) and gives the kind and the key in its standard (DER) form; every other file is refused with \"cannot be decoded\" or (public keys) \"unsupported\". A loaded key checks signatures exactly as the key in the file does. A public key whose bytes are stored, for example in a keystore, and parsed again comes back as the same key — which is true for the curve keys, but false for RSA-4096: the buffer is too small, so such a key is never accepted from memory, cannot be used from a keystore, and stops `bpak generate keystore`.", "quantifier": "every key file content, every byte string given as a key, every digest and signature, and every implementation of the mbedtls key functions that keeps the listed promises", "why_tests_cant": "the key formats and sizes are unbounded, tests use one key of each kind, and none has an RSA key in a keystore", "anchors": ["lib/mbedtls_wrapper.c:bpak_mbed_load_public_key", "lib/mbedtls_wrapper.c:bpak_mbed_load_private_key", "lib/mbedtls_wrapper.c:bpak_mbed_parse_public_key", "lib/mbedtls_wrapper.c:bpak_mbed_verify", "include/bpak/bpak.h:bpak_key_kind"]}
{"id": "C102", "title": "Sign with a key file, verify with a key file or a keystore", "statement": "Take a package built by any session of commands and signed with `bpak sign --key`. Signing succeeds exactly if the crypto library makes a signature of the digest of the header, and otherwise leaves the file alone. Afterwards `bpak verify --key` with any public key file that can be loaded succeeds exactly if that key accepts the signature — so with the matching key it always does — and reports a failed verification otherwise. The same holds for `bpak verify --keystore` with the key the package names, on one of the curves, in a keystore made by any session of commands; with an RSA key there it fails. Whatever the package and the key: if verification succeeds, then the hash is one of the three known ones, the key is one the crypto library can read, and the library accepted with it the signature in the header for the digest of the header.", "quantifier": "every building session, every keystore session, every key pair, key file, random input and hash function of the right digest lengths", "why_tests_cant": "the sessions, keys and payloads are unbounded", "anchors": ["lib/pkg_sign.c:bpak_pkg_sign", "lib/pkg_verify.c:bpak_pkg_verify", "lib/mbedtls_wrapper.c:bpak_mbed_sign", "src/sign.c:action_sign", "src/sign.c:action_verify", "lib/keystore_load_from_file.c:bpak_keystore_load_key_from_file"]}
{"id": "C103", "title": "Python: what can be read from a package is what the library wrote", "statement": "After any Python program's calls on a package: get_part and get_meta take integers modulo 2^32 and return an object exactly for the ids (and references) the package has, else KeyError (0 is an exception: get_part(0) returns an object while the table has a free slot). Part.size is the file's length rounded up to 512, Part.offset the header plus the rounded sizes of the parts before, and the file's bytes are found there; is_transport_encoded is False. Meta.size and raw_data give the entry, as_uuid its 16 bytes, else ValueError. Package.installed_size and size are the sums of the rounded and of the plain lengths. bpak.id gives the id with which get_part finds the part. read_digest gives the digest of the signed bytes and changes nothing; verify returns exactly if the key accepts the signature and the hash trees are right, else raises.", "quantifier": "every program of calls, every package it can lead to, every part and entry, every integer, every key and signature scheme", "why_tests_cant": "the attributes depend on all parts before and on the whole history of the package; no finite set of programs covers it", "anchors": ["python/package.c:package_get_part", "python/package.c:package_get_meta", "python/package.c:package_get_size", "python/package.c:package_get_installed_size", "python/package.c:package_get_digest", "python/package.c:package_verify", "python/part.c:part_get_size", "python/part.c:part_get_offset", "python/part.c:part_is_transport_encoded", "python/meta.c:meta_as_uuid", "python/python_wrapper.c:m_generate_id"]}
{"id": "C104", "title": "The suffix sort is correct and safe", "statement": "For every byte string t, sais(t, array, |t|) on an array of |t| cells finishes without touching memory it does not own and without reading unallocated or freed memory. It returns 0 and the array then lists every position of t exactly once in the dictionary order of the suffixes, or it returns -2 because an allocation failed. All other memory is as before, so all working memory has been freed; the outcome does not depend on what the array or freshly allocated memory contained.", "quantifier": "every byte string (every depth of the recursion), every initial content of the array and of allocated blocks, every pattern of failing allocations", "why_tests_cant": "The linear-time construction reuses the free space of the array for counters, buckets and the recursive text, with different layouts depending on how much space is left; a test sees a few strings, not every layout, recursion depth and allocation failure.", "anchors": ["lib/sais.c:sais", "lib/sais.c:sais_main", "lib/sais.c:lms_sort_1", "lib/sais.c:lms_sort_2", "lib/sais.c:lms_postproc_1", "lib/sais.c:lms_postproc_2", "lib/sais.c:induce_sa"]}
{"id": "C105", "title": "A delta made with the encoder's own suffix array restores the new file", "statement": "For every origin and every new file below 2 GiB, bpak_bsdiff_init followed by bpak_bsdiff (uncompressed), with the array the encoder builds and its own search, either reports a failed allocation or emits bytes that, fed to bpak_bspatch in chunks of any sizes with the same origin, write exactly the new file. (False of the code when a rest of the new file sorts behind every suffix of the origin: the search reads the entry behind the last one of the array.)", "quantifier": "every pair of files, every pattern of failing allocations, every content of allocated memory, every chunking and work buffer size", "why_tests_cant": "Whether the search leaves the array depends on the order of all suffixes of both files.", "anchors": ["lib/bsdiff.c:bpak_bsdiff_init", "lib/bsdiff.c:bpak_bsdiff", "lib/bsdiff.c:search", "lib/sais.c:sais", "lib/bspatch.c:bpak_bspatch_write"]}
{"id": "C106", "title": "A write that fails is reported, and nothing is lost silently", "statement": "Whatever writes to the package file stop short (fwrite says so), anywhere in any call that changes a package (open, add a file, a file with a hash tree or a key, delete one or all parts, write the header, install a signature, sign): a call that reports success would have succeeded on a disk with room and leaves the same package and the same file; a call that reports an error leaves a file that a crash during the call could have left. So a session in which every call succeeds leaves what it leaves on a disk with room. If adding a file fails, the old package still opens from the file with all its parts, or only the 4096 bytes of the header are a mixture of old and new. (After a failed add the handle is not as before: the part stays in the header in memory, a second try is refused, and a later write of the header stores a part that has no data.)", "quantifier": "every package, every call and its arguments, every sequence of calls, and for every write whether it is complete or after how many bytes it stops", "why_tests_cant": "a test can fill a disk at a few points; the claim is about every write of every call stopping after every number of bytes, for every package", "anchors": ["lib/pkg.c:bpak_pkg_open", "lib/pkg.c:bpak_pkg_write_header", "lib/pkg.c:bpak_pkg_delete_part", "lib/pkg.c:bpak_pkg_delete_all_parts", "lib/pkg.c:bpak_pkg_write_raw_signature", "lib/pkg_create.c:bpak_pkg_add_file", "lib/pkg_create.c:bpak_pkg_add_key", "lib/pkg_create.c:bpak_pkg_add_file_with_merkle_tree", "lib/pkg_sign.c:bpak_pkg_sign"]}
{"id": "C107", "title": "Success is reported only for what is stored", "statement": "If write errors can be noticed late (fwrite only fills the buffer of the stream), then a call that reports success followed by bpak_pkg_close leaves the complete package in the file. (False of the code: neither fclose nor fflush is looked at, so a header that does not fit on the disk is lost although every call reports success, and the old package opens from the file. What holds: nothing but a last piece of the header can be missing, and the next call that writes reports the error.)", "quantifier": "every package, every call and its arguments, and for every write whether it is complete, stops after some bytes at once, or stops after some bytes and this is noticed later", "why_tests_cant": "the error shows only on a disk that fills up at one particular write, after the call has returned", "anchors": ["lib/pkg.c:bpak_pkg_close", "lib/pkg.c:bpak_pkg_write_header", "lib/pkg.c:bpak_pkg_delete_part", "lib/pkg_create.c:bpak_pkg_add_file"]}
{"id": "C108", "title": "The exit status of bpak verify can be trusted", "statement": "Every error code has an exit status of its own, from 1 to 255, and 0 is the status of success only. `bpak verify` exits with 0 exactly if it was asked for help before anything else was wrong with its options, or if all options are known, a package is named, and that package verifies: its stored signature over the digest of its header is accepted by the crypto library with the key of the last -k, or without -k with the key that the keystore package of the last -K has under the key id of the package. This holds for every spelling of the options (-k KEY, -kKEY, --key KEY, --key=KEY, before or after the file name). (\"Status 0 means that the package was verified\" is false because of -h.)", "quantifier": "every command line, every content of all files, every crypto library (hash and public keys)", "why_tests_cant": "the number of command lines, packages and key files is unbounded, and acceptance must be excluded for all of the wrong ones", "anchors": ["src/main.c:main", "src/sign.c:action_verify", "lib/pkg_verify.c:bpak_pkg_verify", "src/sign.c:long_options"]}
{"id": "C109", "title": "A command line changes only the files it names for output", "statement": "A run of the bpak tool changes or creates only the package (first operand) for create, add, set, delete, sign, verify, extract and transport, the file of the last -o for extract and transport, and the file of the last -O for transport (it may complete a short file that it opens); show, compare and generate change nothing; verify, and extract without -o, change nothing if the package has at least 4096 bytes. A file whose path no argument ends with is never touched. A word that is no action and an option that the action does not know lead to status 255, nothing printed on the standard output, no file changed.", "quantifier": "every command line, every content of all files, every outcome of the run", "why_tests_cant": "it is a statement about all other files and all failing and succeeding runs", "anchors": ["src/main.c:main", "src/create.c:action_create", "src/add.c:action_add", "src/set.c:action_set", "src/delete.c:action_delete", "src/sign.c:action_sign", "src/sign.c:action_verify", "src/show.c:action_show", "src/extract.c:action_extract", "src/transport.c:action_transport", "src/generate.c:action_generate", "src/compare.c:action_compare"]}
{"id": "C110", "title": "The order of options does not matter", "statement": "Two command lines of the same action with the same operands in the same order and the same options and arguments (repeated options in the same order), in any order among each other and in any spelling, do the same: the same status, the same output, the same files. -v and --verbose change none of these.", "quantifier": "every action, every pair of such command lines, every content of the files", "why_tests_cant": "there are factorially many orders and unboundedly many arguments", "anchors": ["src/create.c:action_create", "src/add.c:action_add", "src/set.c:action_set", "src/delete.c:action_delete", "src/sign.c:action_sign", "src/sign.c:action_verify", "src/show.c:action_show", "src/extract.c:action_extract", "src/transport.c:action_transport", "src/generate.c:action_generate"]}
{"id": "C111", "title": "A sequence of command lines builds the package it spells", "statement": "A command line of create, add, set, delete, sign or transport --add either fails and leaves the package as it was, or does to the package what the command it spells does with the last argument given for each option and the contents of the files named. So after any sequence of command lines on a path that was empty at first, whatever else happens to other files in between, the package at that path is intact, opens, and contains exactly the files of the lines that exited with 0, each of which can be extracted unchanged by name.", "quantifier": "every sequence of command lines, of any length, every content of all other files at each of them, every history of what other lines do to other files", "why_tests_cant": "histories are unbounded, and each line can be spelled in many ways", "anchors": ["src/main.c:main", "src/create.c:action_create", "src/add.c:action_add", "src/set.c:action_set", "src/delete.c:action_delete", "src/sign.c:action_sign", "src/transport.c:action_transport", "src/extract.c:action_extract"]}
{"id": "C112", "title": "Command lines that do less than they look like", "statement": "A user who reads the usage text expects every argument to be used or refused and every documented option to be accepted. What the tool does instead, for every line of the shape: all operands after the first (for compare after the second, for generate after the second) are ignored, so `bpak verify -k K A B` exits with 0 if A verifies, even if B does not exist; `transport -D` and `transport -p`, named in the usage text, are refused while --decode works; `generate` with an unknown generator exits with 0 and prints nothing; after `--` the name of the action is taken as the first operand as well; `sign` with neither -k nor -f passes a null pointer to the key reader.", "quantifier": "every command line of the described shapes, every content of the files", "why_tests_cant": "the shapes have unboundedly many instances", "anchors": ["src/main.c:main", "src/sign.c:action_verify", "src/sign.c:action_sign", "src/transport.c:action_transport", "src/generate.c:action_generate", "src/misc.c:print_transport_usage"]}
{"id": "C113", "title": "What command lines put into a package, command lines get out", "statement": "After any sequence of command lines on a path, `bpak extract` with the name of a part prints exactly the bytes of the file that was added under that name and exits with 0, or with -o writes exactly those bytes to the named file and changes nothing else; for a name under which nothing was added it exits with the status of \"not found\", writes nothing and creates no output file. The options may stand before or after the file name and be spelled short or long. `show`, `compare` and `generate` report on the contents of the files named, in their order, and change no file at all; `generate id NAME` prints the id of the name.", "quantifier": "every sequence of command lines, every spelling of the reading line, every content of other files", "why_tests_cant": "the histories, the spellings and the contents are unbounded", "anchors": ["src/main.c:main", "src/extract.c:action_extract", "src/show.c:action_show", "src/compare.c:action_compare", "src/generate.c:action_generate"]}
{"id": "C114", "title": "Signed by one command line, verified by another", "statement": "Take a package that command lines built (without deleting or changing metadata) and sign it with a command line that exits with 0. The signature in the package is the one the crypto library makes with the named private key over the digest of the header. A later `bpak verify` on it, whatever happened to other files in between, exits with 0 exactly if the crypto library accepts this signature with the public key: the one in the file named with -k, or with -K the one that other command lines added to the named keystore under the key id in the package; otherwise it exits with the status of \"verification failed\". With the public key that belongs to the private key it exits with 0.", "quantifier": "every sequence of command lines for the package and for the keystore, every key, every spelling of the lines, every history of other files", "why_tests_cant": "histories, keys and digests are unbounded", "anchors": ["src/main.c:main", "src/sign.c:action_sign", "src/sign.c:action_verify", "lib/pkg_sign.c:bpak_pkg_sign", "lib/pkg_verify.c:bpak_pkg_verify"]}
{"id": "C115", "title": "The metadata of a package is what the commands put there", "statement": "After a session with the tool, whatever its length and whichever of its commands fail, the package has exactly the metadata entries that the successful commands put there, in that order: the entries of `add --meta` with their encoded content, salt and root hash of each part added with a hash tree, the entry of `transport --add`, with the texts, integers and ids that `set` gave them since, and without the entries of the parts that `delete` removed. `create` starts over; adding parts or keys, signing, setting key ids and deleting with --keep-meta leave all entries as they are; so does every command that fails. `extract --meta` (with --part-ref) delivers exactly that content, and reports \"not found\" for every other name. The same holds for sequences of command lines of the program.", "quantifier": "every sequence of commands and of their outcomes, every content, every package that results, every name asked for afterwards", "why_tests_cant": "the number of commands, their order and the contents are unbounded", "anchors": ["src/add.c:action_add", "src/set.c:action_set", "src/delete.c:action_delete", "src/transport.c:action_transport", "src/extract.c:action_extract", "lib/bpak.c:bpak_add_meta", "lib/bpak.c:bpak_del_meta", "lib/pkg.c:bpak_pkg_delete_part"]}
{"id": "C116", "title": "Everything that is taken is given back, once", "statement": "Streams, blocks of memory, mappings and what key contexts hold are released exactly once, with a function that fits, and are not used before they are acquired, after they are released, or when they could not be acquired; when a program or a command is through, none is left. That holds however each call ends: files that cannot be opened, failed reads and writes, refused data, keys that cannot be decoded, memory that runs out. It does not hold for the key context of a public key loaded from a file (left), for `bpak transport` (its output is never closed, its input not when the origin cannot be opened), for the decoder of an LZMA delta whose data is refused (left), and where memory is used without a check (adding with a hash tree, loading a public key, `set`, `generate keystore`).", "quantifier": "every outcome of every call (file system, memory, data), every number of rounds of every loop, every depth of the suffix sort, every sequence of calls on a package, every list of parts, every command", "why_tests_cant": "the outcomes of the calls are a tree with unboundedly many leaves; leaks and double releases have no visible effect in a test", "anchors": ["lib/pkg.c:bpak_pkg_open", "lib/pkg.c:bpak_pkg_close", "lib/pkg.c:bpak_pkg_extract_file", "lib/pkg_create.c:bpak_pkg_add_file", "lib/pkg_create.c:bpak_pkg_add_file_with_merkle_tree", "lib/pkg_create.c:bpak_pkg_add_key", "lib/pkg_sign.c:bpak_pkg_sign", "lib/mbedtls_wrapper.c:bpak_mbed_load_public_key", "lib/sais.c:sais_main", "lib/bsdiff.c:bpak_bsdiff_init", "lib/transport_encode.c:transport_bsdiff", "lib/pkg.c:bpak_pkg_transport_decode", "src/transport.c:action_transport", "src/set.c:action_set", "src/generate.c:action_generate"]}
{"id": "C117", "title": "The life of a Python package object", "statement": "A `bpak.Package` object on which methods are called and which is then closed, left as a `with` block, both, several times, or just dropped, closes its file exactly once and gives back what its methods took. It does not hold when the constructor fails after the file was opened: the stream is closed twice, for every such failure; nor for methods called after `close`, which use a stream that is not there.", "quantifier": "every outcome of every call, every sequence of methods, every number of `close` and `__exit__` after them, every failing constructor", "why_tests_cant": "the sequences of operations and the places where a call can fail are unbounded; a double fclose need not crash a test", "anchors": ["python/package.c:package_init", "python/package.c:package_dealloc", "python/package.c:package_close", "python/package.c:package_exit", "lib/pkg.c:bpak_pkg_open", "lib/pkg.c:bpak_pkg_close"]}
{"id": "C118", "title": "An installed allocator and the C library's do not meet", "statement": "After `bpak_set_calloc_free`, memory from the installed function is released with the installed function and memory of the C library with `free`, in every session of calls and in encoding and decoding. It does not hold for adding a key and for verifying (the key is released with `free`, and the library has no other function for it), nor for the LZMA encoder and decoder (made with the C library's memory, released with the installed function).", "quantifier": "every outcome of every call, every sequence of calls, every list of parts", "why_tests_cant": "with the default allocator nothing can be seen; the paths are unbounded", "anchors": ["lib/mem.c:bpak_set_calloc_free", "lib/mem.c:bpak_calloc", "lib/pkg_create.c:bpak_pkg_add_key", "src/sign.c:action_verify", "lib/bsdiff.c:compressor_init", "lib/bspatch.c:decompressor_init", "lib/sais.c:sais_main"]}
{"id": "C119", "title": "A command line means what is written on it", "statement": "The tool finds in its arguments exactly the options, option arguments and operands that are written there by the conventions of GNU command lines (clusters of letters, attached or separate arguments, long names, `=`, unambiguous beginnings of long names, operands anywhere, `--`), for every action; a line can be read in one way only; two lines that say the same do the same; a line that cannot be read exits with status 255 and changes nothing, unless help is asked for before. `add --set-flag` takes `dont-hash` only. `-h`, `-V` and their long forms instead of an action print usage and version, any other option there is refused.", "quantifier": "every action, every list of arguments, every content of the files", "why_tests_cant": "the command lines are unbounded in number, length and spelling", "anchors": ["src/main.c:main", "src/add.c:action_add", "src/create.c:action_create", "src/show.c:action_show", "src/sign.c:action_sign", "src/sign.c:action_verify", "src/generate.c:action_generate", "src/transport.c:action_transport", "src/set.c:action_set", "src/compare.c:action_compare", "src/extract.c:action_extract", "src/delete.c:action_delete"]}
{"id": "C120", "title": "Crypto functions that an application installs", "statement": "An application that embeds the library installs its own hash and public-key functions with `bpak_hash_setup` and `bpak_crypto_setup`. The functions last installed, and no others, are used, each for its own purpose. `bpak_verify_compute_payload_hash`, `bpak_pkg_verify` and `bpak_pkg_sign` give them exactly the data they are to work on, notice when they fail, release the hash context once, and report success only on the answers: `bpak_pkg_verify` only if the installed verify function accepted the signature in the header for the hash of the header and the digest of the payload is the one in the header; `bpak_pkg_sign` writes the header with exactly the signature that the installed function gave for the loaded key, and writes nothing when anything fails. (False for the hash of the header: `bpak_verify_compute_header_hash` reports success also when a hash function fails, and then uninitialised memory is verified or signed in place of the hash.)", "quantifier": "all installed functions, present or NULL, with whatever state and answers, failing at any call; all packages, keys and file names; all contents of uninitialised memory", "why_tests_cant": "The answers of functions that are not part of the library, at every call, cannot be enumerated; tests run with the one backend that is linked, which practically never fails", "anchors": ["lib/crypto.c:bpak_hash_setup", "lib/crypto.c:bpak_crypto_setup", "lib/verify.c:bpak_verify_compute_header_hash", "lib/verify.c:bpak_verify_compute_payload_hash", "lib/verify.c:bpak_verify_payload", "lib/pkg_verify.c:bpak_pkg_verify", "lib/pkg_sign.c:bpak_pkg_sign", "include/bpak/crypto.h"]}
{"id": "C121", "title": "Extraction to a disk that can be full", "statement": "`bpak_pkg_extract_file` and `bpak extract` to a disk that can be full, or to a path where nothing can be created: what is written is always a beginning of what should be written; success is reported only if the same extraction succeeds with room; and then the output is complete: exactly the bytes of the part, or of the metadata. With room the result is that of the other properties. (False where a write error shows only when the buffers are written out: the result of `fclose` is ignored, and an empty or cut output is reported as success.)", "quantifier": "all packages (all files), parts, metadata and arguments; all behaviours of the disk: every write complete, cut at any byte and reported, or cut and noticed later", "why_tests_cant": "Every point at which a disk can become full, for every size of part, would have to be tried; tests run on disks with room", "anchors": ["lib/pkg.c:bpak_pkg_extract_file", "src/extract.c:action_extract"]}
{"id": "C122", "title": "A hash tree built on storage that can fail", "statement": "When bpak_merkle_init, the calls of bpak_merkle_write_chunk and bpak_merkle_finish all succeed, the root is that of the tree over the data and the storage behind the callbacks holds exactly that tree at the place, and nothing else is changed; an error is one that a callback returned, or -BPAK_READ_ERROR for a short read; callbacks that never fail always give the tree.", "quantifier": "every pair of callbacks that do what they report (any store, any pattern of failures and short reads), every data, cut, salt, offset, hash function", "why_tests_cant": "The failing call can be any of an unbounded number of writes and reads, and the storage can be anything.", "anchors": ["lib/merkle.c:bpak_merkle_init", "lib/merkle.c:bpak_merkle_write_chunk", "lib/merkle.c:bpak_merkle_finish"]}
{"id": "C123", "title": "A payload checked through a reader that can fail", "statement": "With a read callback that may fail or read short at any call, bpak_verify_payload gives the verdict that the stored bytes deserve, or the failure of the reader: a failure never leads to acceptance, and never to a wrong digest or a verdict on other bytes.", "quantifier": "every reader that gives the true bytes whenever it gives all that were asked for, every header, payload, offset, hash function", "why_tests_cant": "The failing call can be any of an unbounded number of reads, on any header.", "anchors": ["lib/verify.c:bpak_verify_payload", "lib/verify.c:bpak_verify_compute_payload_hash", "lib/verify.c:bpak_verify_merkle_tree", "lib/verify.c:merkle_verify_wr"]}
{"id": "C124", "title": "A package can be added to itself", "statement": "Adding a file to a package works for every file, also when the file named is the package itself: the call ends, and the new part holds the package as it was.", "quantifier": "every good package of any size, every way in which stdio holds back at most one block of written data, every number of rounds of the copy loop", "why_tests_cant": "The size of the package, the schedule of the buffer and the number of rounds are unbounded; that it does not end cannot be observed.", "anchors": ["lib/pkg_create.c:bpak_pkg_add_file"]}
{"id": "C125", "title": "A command never destroys the package it reads", "statement": "Extraction and transport encoding and decoding leave the package they read from intact, also when the output path names that package.", "quantifier": "every package, part, amount of data that stdio had read ahead, every output path that names the input", "why_tests_cant": "The state of the buffers at the time the file is emptied is not observable, and every part of every package is concerned.", "anchors": ["lib/pkg.c:bpak_pkg_extract_file", "lib/transport_encode.c:bpak_transport_encode", "lib/pkg.c:bpak_pkg_transport_decode", "src/transport.c", "src/extract.c"]}
{"id": "C126", "title": "A delta applied through callbacks that can fail", "statement": "When every call of bpak_bspatch_write (and bpak_bspatch_final) succeeds on a delta, the new file is in its place behind write_output, nothing else there has changed and its size is reported; otherwise the first failing call returns what read_origin or write_output answered, or the code for a transfer that fell short, and every later call fails, too.", "quantifier": "every pair of honest callbacks with any pattern of failures and short transfers, every origin, new file, cut of the delta, compression, buffer size; every stream", "why_tests_cant": "The failing call can be any of an unbounded number of reads and writes, and what is behind the callbacks can be anything.", "anchors": ["lib/bspatch.c:bspatch_write", "lib/bspatch.c:bspatch_hs_write", "lib/bspatch.c:bspatch_lzma_write", "lib/bspatch.c:bpak_bspatch_final"]}
{"id": "C127", "title": "A transport package decoded through callbacks that can fail", "statement": "When bpak_transport_decode (start, write_chunk and finish for every part, as bpak_pkg_transport_decode calls them) succeeds on an encoded package, the package that was sent is behind write_output and write_output_header, byte for byte; otherwise the first failing step returns what write_output, read_output, read_origin or write_output_header answered, or the code for a transfer that fell short. For an arbitrary package the result is the one over a file that never fails, or such a code.", "quantifier": "every set of honest callbacks with any pattern of failures and short transfers, every sendable package and origin accepted by the decoder, every encoded or damaged transport package", "why_tests_cant": "The failing call can be any of an unbounded number of reads and writes made by the copying, delta and hash-tree decoders, and what is behind the callbacks can be anything.", "anchors": ["lib/transport_decode.c:bpak_transport_decode_start", "lib/transport_decode.c:bpak_transport_decode_write_chunk", "lib/transport_decode.c:bpak_transport_decode_finish", "lib/transport_decode.c:merkle_generate", "lib/pkg.c:bpak_pkg_transport_decode"]}
{"id": "C128", "title": "A delta made through a callback that can fail", "statement": "bpak_bsdiff returns a size only if every byte of a delta that restores the new file from the origin lies behind write_output at the output offset, that many bytes and nothing else there changed; otherwise it returns what write_output answered, or the write error code for a write that fell short. Without compression, with heatshrink and with LZMA. The delta is the same whatever the callback, the offset and what is there already. Made and applied through callbacks that can fail, success at both ends means that the new file is in its place.", "quantifier": "every honest callback with any pattern of failures and short writes, every origin, new file, output offset and compression", "why_tests_cant": "The failing write can be any of an unbounded number, in any of the places where the three compressors write, and what is behind the callback can be anything.", "anchors": ["lib/bsdiff.c:bpak_bsdiff", "lib/bsdiff.c:compressor_write", "lib/bsdiff.c:hs_compressor_write", "lib/bsdiff.c:hs_compressor_final", "lib/bsdiff.c:lzma_compressor_write", "lib/bsdiff.c:lzma_compressor_final"]}
