{"id": "C01", "title": "Base58 round trip on bytes", "statement": "Decoding the Base58 text of a byte string gives that byte string back, provided the byte string contains a nonzero byte. (It does not for all-zero strings: there one extra zero byte comes back.)", "quantifier": "every byte string of every length, with any number of leading zeros", "why_tests_cant": "Byte strings are unbounded and the leading-zero/padding logic interacts with the integer conversion; a test fixes a few literals.", "anchors": ["bit/base58.py:b58encode", "bit/base58.py:b58decode", "bit/utils.py:int_to_unknown_bytes"]}
{"id": "C02", "title": "Base58 text is canonical and bad characters are refused", "statement": "Decoding accepts a string exactly when all its characters are Base58 characters, raises ValueError otherwise, and re-encoding an accepted string that is not made only of '1' gives the same string: no two accepted strings denote the same bytes.", "quantifier": "every string over any characters", "why_tests_cant": "Canonicity is a statement about all pairs of strings, and refusal one about all strings over any alphabet. A test can only list a few good and a few bad strings.", "anchors": ["bit/base58.py:b58decode", "bit/base58.py:b58encode"]}
{"id": "C03", "title": "Base58Check accepts exactly what was checksummed", "statement": "Checked decoding of checked encoding returns the payload (payload or checksum having a nonzero byte); checked decoding succeeds only on strings whose last four decoded bytes are the double-SHA256 prefix of the returned payload, and then re-encoding gives the same string.", "quantifier": "every payload, every string, every hash function with 32-byte output", "why_tests_cant": "It ranges over all payloads and all strings, including those that no encoder produced. A test shows that a few corrupted strings are refused, not that nothing but checksummed payloads is accepted.", "anchors": ["bit/base58.py:b58encode_check", "bit/base58.py:b58decode_check"]}
{"id": "C04", "title": "WIF export/import round trip", "statement": "Exporting a 32-byte secret as WIF and importing it returns the same secret, the same compression flag and the same network.", "quantifier": "every 32-byte secret, both networks, both compression flags", "why_tests_cant": "The compression flag is recovered from the text length 52, so correctness rests on the Base58 length of every possible 37 or 38 byte payload, 2^256 secrets.", "anchors": ["bit/format.py:bytes_to_wif", "bit/format.py:wif_to_bytes"]}
{"id": "C05", "title": "WIF import never misreads a string", "statement": "Any string accepted by WIF import that yields a 32-byte secret is exactly the WIF export of the returned secret, flag and network; a string is accepted only with a valid checksum and prefix 0x80 or 0xef, and the checksum predicate says True exactly for the accepted strings.", "quantifier": "every string", "why_tests_cant": "An importer meets arbitrary text typed by people. That no string at all is read as a different key than the one it encodes cannot be sampled: the dangerous strings are exactly those nobody thought of.", "anchors": ["bit/format.py:wif_to_bytes", "bit/format.py:wif_checksum_check", "bit/format.py:bytes_to_wif"]}
{"id": "C06", "title": "Bech32 text round trip", "statement": "A Bech32 string built from a lower-case human readable part and 5-bit data decodes to exactly that part and data, whenever its total length is at most 90.", "quantifier": "every human readable part of printable lower-case characters, every list of 5-bit values", "why_tests_cant": "The checksum works for every message because of an algebraic identity of the code. A few test vectors pass with many wrong generators or with a mishandled high bit.", "anchors": ["bit/base32.py:bech32_encode", "bit/base32.py:bech32_decode", "bit/base32.py:bech32_create_checksum"]}
{"id": "C07", "title": "Segwit address round trip and totality", "statement": "For every network prefix bc/tb/bcrt, witness version 0..16 and program of 2..40 bytes (20 or 32 for version 0) encoding succeeds and decoding gives version and program back; for other versions below 32 and for other lengths encoding returns None rather than an undecodable address (a version of 32 or more raises IndexError).", "quantifier": "every version, every program of bytes", "why_tests_cant": "Every version, every program length from 2 to 40 bytes and every content must survive; the bit regrouping pads differently for each length and tests use the two usual lengths.", "anchors": ["bit/base32.py:encode", "bit/base32.py:decode"]}
{"id": "C08", "title": "Segwit decoding is canonical", "statement": "If a string decodes as a segwit address then re-encoding the decoded version and program under its prefix gives the lower-cased string: each output script has one lower-case address, and nonzero padding or overlong padding is rejected.", "quantifier": "every string", "why_tests_cant": "It speaks of all strings, including ones crafted with other padding bits or spellings, which a test author has to invent one by one.", "anchors": ["bit/base32.py:decode", "bit/base32.py:convertbits"]}
{"id": "C09", "title": "Bech32 catches typing errors", "statement": "Replacing up to four data characters of a valid Bech32 address by other charset characters never gives another valid Bech32 string (any single replacement at any length; up to four within the 90 character limit). Exchanging two different data characters is always detected, and a valid address of one network never becomes a valid one of the other by changing its prefix between bc and tb, not even with up to two wrong data characters besides (up to 86 characters after the separator).", "quantifier": "every valid Bech32 string, every set of up to four positions, every replacement", "why_tests_cant": "About 10^12 error patterns per address times all addresses; needs linearity of the code.", "anchors": ["bit/base32.py:bech32_polymod", "bit/base32.py:bech32_verify_checksum", "bit/base32.py:bech32_decode"]}
{"id": "C10", "title": "Bech32 case handling", "statement": "Decoding an address in upper case gives the same result as in lower case, and strings mixing both cases are rejected.", "quantifier": "every string", "why_tests_cant": "Case folding interacts with the checksum and with the mixed-case check at every position of every string; tests try a few spellings.", "anchors": ["bit/base32.py:bech32_decode"]}
{"id": "C11", "title": "Bit regrouping is lossless", "statement": "Regrouping bytes into 5-bit values with padding and back without padding returns the bytes; the regrouped list has ceil(8n/5) values all below 32; strict regrouping rejects input whose leftover bits are not fewer than five zero bits.", "quantifier": "every list of bytes / 5-bit values", "why_tests_cant": "The claim is a loop invariant over lists of any length and all leftover bit patterns; a sample of lengths misses some residue of 8n modulo 5 with some leftover value.", "anchors": ["bit/base32.py:convertbits"]}
{"id": "C12", "title": "Hex and byte order helpers invert each other", "statement": "hex_to_bytes(bytes_to_hex(b)) is b; bytes_to_hex(hex_to_bytes(h)) is h in lower case for even-length hex; flipping the byte order twice is the identity on even-length lower-case hex.", "quantifier": "every byte string and hex string", "why_tests_cant": "Inputs are unbounded, and odd lengths, upper case and leading zeros combine; a round trip on a few literals does not show injectivity.", "anchors": ["bit/utils.py:bytes_to_hex", "bit/utils.py:hex_to_bytes", "bit/utils.py:flip_hex_byte_order"]}
{"id": "C13", "title": "Compact-size integers round trip and are minimal", "statement": "Reading back an encoded compact-size integer from the front of any stream gives the value and the untouched rest; values of 2^64 and more raise OverflowError; the encoding has 1, 3, 5 or 9 bytes and is the shortest one for the value.", "quantifier": "every natural number, every following byte stream", "why_tests_cant": "An error at one of the boundaries 253, 2^16, 2^32 and 2^64, or one that depends on what follows in the stream, passes tests that read isolated numbers.", "anchors": ["bit/utils.py:int_to_varint", "bit/utils.py:read_var_int", "bit/utils.py:read_as_int"]}
{"id": "C14", "title": "Script pushes are read back by a script interpreter", "statement": "A push prefix for n followed by n bytes is parsed by the Bitcoin script push rules as pushing exactly these bytes, for every n below 2^32; larger n raise OverflowError.", "quantifier": "every data length and content", "why_tests_cant": "The result has to be what an independent script parser reads, for every length and every content; tests compare the prefix for a few lengths with the constants in the code.", "anchors": ["bit/utils.py:script_push"]}
{"id": "C15", "title": "Public key coordinates round trip", "statement": "For every point (x, y) of secp256k1, serialising it compressed or uncompressed and reading the coordinates back gives (x, y).", "quantifier": "every point of the curve, both serialisations", "why_tests_cant": "There are about 2^256 points. That the square root formula recovers every y rests on the primality of the field size and on p = 3 mod 4, which no number of sampled points shows.", "anchors": ["bit/format.py:public_key_to_coords", "bit/format.py:coords_to_public_key", "bit/curve.py:x_to_y"]}
{"id": "C16", "title": "Compressed keys with off-curve x are not refused", "statement": "Decompressing a 33 byte key whose x is not on the curve should be refused; in fact a point (x, y) with y^2 = -(x^3+7) is returned. For x on the curve the returned y satisfies the curve equation and has the requested parity.", "quantifier": "every 33-byte string with prefix 02/03", "why_tests_cant": "Half of all x values have no point. A test would need to know that the answer for such an x is wrong, and recorded values were produced by the code itself.", "anchors": ["bit/curve.py:x_to_y", "bit/format.py:public_key_to_coords"]}
{"id": "C17", "title": "P2PKH addresses pay to the key's hash on the right network", "statement": "The address of a 33 or 65 byte public key is recognised as belonging to the network it was made for, and paying to it produces exactly the P2PKH script with the key's HASH160, unless its text is also a valid Bech32 text (there are such addresses; both calls then raise ValueError); other key lengths raise ValueError.", "quantifier": "every public key, both networks, every hash function with the right output length", "why_tests_cant": "Leading zero bytes of the hash change the text length, and some texts are also valid Bech32 texts; tests use a few keys whose hashes have no such shape.", "anchors": ["bit/format.py:public_key_to_address", "bit/format.py:get_version", "bit/transaction.py:address_to_scriptpubkey"]}
{"id": "C18", "title": "P2SH-P2WPKH addresses pay to the nested witness program", "statement": "The segwit address of a compressed key is on the right network and paying to it produces the P2SH script of HASH160(0014 || HASH160(key)), unless its text is also a valid Bech32 text (then ValueError); uncompressed keys are refused. A key object reports as address and segwit_address exactly the addresses of its public key on its network, and no segwit_address if it is not compressed.", "quantifier": "every public key, both networks", "why_tests_cant": "It must hold for every key and both networks; a test compares a few recorded addresses and does not parse the script that a payer would produce.", "anchors": ["bit/format.py:public_key_to_segwit_address", "bit/transaction.py:address_to_scriptpubkey"]}
{"id": "C19", "title": "Bech32 destinations give the BIP-141 output script", "statement": "Paying to a decodable bech32 address produces the version opcode (OP_0, OP_1..OP_16), one length byte and the program, and the network is main exactly for prefix bc, unless its text also decodes as Base58Check (there are such addresses; paying to them fails with TypeError).", "quantifier": "every witness version and program", "why_tests_cant": "All versions, program lengths and contents; a test compares scripts for a few addresses, and some valid addresses turn out to be unpayable, which no recorded case shows.", "anchors": ["bit/transaction.py:address_to_scriptpubkey", "bit/format.py:segwit_scriptpubkey", "bit/format.py:get_version"]}
{"id": "C20", "title": "Unrecognised destinations are refused with ValueError", "statement": "A destination that is neither a Base58Check string with a known version byte nor a Bech32 string with a known prefix makes script construction raise ValueError and never returns a script. (A Bech32 string with valid checksum and known prefix but invalid program raises TypeError instead, and Base58 payloads of the wrong length are accepted.)", "quantifier": "every string", "why_tests_cant": "Everything a user may type by mistake has to be refused. Tests list a handful of wrong strings.", "anchors": ["bit/transaction.py:address_to_scriptpubkey", "bit/format.py:get_version"]}
{"id": "C21", "title": "Multisig redeem scripts say what was asked", "statement": "When a redeem script is returned, parsing it with the Bitcoin script rules gives m, exactly the given public keys in order, n and OP_CHECKMULTISIG; it is at most 520 bytes, hence n <= 15, all keys have 33 or 65 bytes and m <= n; otherwise ValueError is raised.", "quantifier": "every list of byte strings and every m >= 1", "why_tests_cant": "All numbers and lengths of keys up to the 520 byte limit; an off-by-one in an opcode or a limit shows only for particular m, n and key kinds.", "anchors": ["bit/format.py:multisig_to_redeemscript"]}
{"id": "C22", "title": "Multisig contracts built from a set do not depend on its order", "statement": "If the public keys are given as a set, redeem script and addresses are the same whatever order the set is iterated in, and are the same for keys given as bytes and as lower-case hex.", "quantifier": "every set of keys and every iteration order", "why_tests_cant": "Iteration order of a set changes from run to run (hash randomisation), so a test sees one order; independence is a statement about all permutations.", "anchors": ["bit/wallet.py:MultiSig.__init__", "bit/format.py:multisig_to_redeemscript"]}
{"id": "C23", "title": "Multisig construction validates its key", "statement": "Construction (with m >= 1) succeeds exactly if the private key belongs to the same network class, its public key is one of the given keys (as bytes or lower-case hex; in upper-case hex it is not recognised), a set does not mix bytes and texts, and the arguments stand for at least m keys of 33 or 65 bytes that fit in a script of 520 bytes; the exception is TypeError for the other class and for a mixed set and ValueError otherwise. On success both addresses are on the object's network and pay to the redeem script's hash (unless the text of one is also a valid Bech32 text).", "quantifier": "every private key, key list, m", "why_tests_cant": "It relates the outcome to all combinations of key class, key list and m, including the refusals; tests construct two or three contracts.", "anchors": ["bit/wallet.py:MultiSig.__init__", "bit/wallet.py:MultiSigTestnet.__init__", "bit/format.py:multisig_to_address", "bit/format.py:multisig_to_segwit_address"]}
{"id": "C24", "title": "Transaction serialisation round trip", "statement": "Deserialising the bytes of a transaction with at least one input and correct field widths gives back version, outpoints, scripts, sequences, outputs, witnesses and lock time, for legacy and segwit transactions.", "quantifier": "every number of inputs/outputs, every script and witness stack", "why_tests_cant": "Length-prefixed lists are nested and unbounded, and each prefix changes its width at 253 and 65536; tests parse a few recorded transactions.", "anchors": ["bit/transaction.py:deserialize", "bit/transaction.py:TxObj.__bytes__", "bit/transaction.py:TxIn.__bytes__", "bit/transaction.py:TxOut.__bytes__"]}
{"id": "C25", "title": "Deserialised transactions re-serialise to the same bytes", "statement": "If a byte string is the wire encoding of some transaction then serialising its deserialisation gives the same bytes, so passing a transaction through the library does not change its id.", "quantifier": "every canonical byte string", "why_tests_cant": "It speaks about all wire encodings anyone may hand in, of any shape; recorded transactions exercise a few shapes, and a byte that is dropped in a rare one changes the id.", "anchors": ["bit/transaction.py:deserialize", "bit/transaction.py:TxObj.to_hex"]}
{"id": "C26", "title": "Malformed transactions are not rejected", "statement": "Truncated transactions and transactions with trailing bytes should be refused. In fact trailing bytes are ignored for every transaction, and a transaction cut inside its lock time is accepted. Without witnesses, and with fewer than 253 outputs, a cut anywhere before the script of the last output is refused, and a cut inside that script is accepted with a shortened script; with witnesses, a cut anywhere before the witness of the last input is refused. With 256 outputs a cut inside their number is accepted and all outputs are lost. As a text, a transaction with witnesses (and a version below 2^24) that is cut in the middle of a byte after its tenth digit is always accepted, as one without inputs and outputs. A newline after hexadecimal text is refused although the pattern lets it through. The only exception is ValueError, except that a text with an even number of blanks or line ends between two bytes raises TypeError (with an odd number it is ValueError).", "quantifier": "every transaction and every suffix / cut", "why_tests_cant": "That a suffix or a cut is never noticed is a statement about all transactions and all continuations.", "anchors": ["bit/transaction.py:deserialize", "bit/utils.py:read_bytes"]}
{"id": "C27", "title": "Transaction ids ignore witnesses", "statement": "The computed txid is the reversed double SHA-256 of the witness-free serialisation: two segwit transactions differing only in witnesses have the same txid, and adding a witness does not change it.", "quantifier": "every transaction, every pair of witness assignments, every hash function", "why_tests_cant": "The claim compares pairs of transactions that differ in any witness data; a test compares one id with a recorded one.", "anchors": ["bit/transaction.py:calc_txid", "bit/transaction.py:TxObj.legacy_repr"]}
{"id": "C28", "title": "Fee estimate formula and monotonicity", "statement": "The estimated fee is the rate times the size rounded up, zero for rate zero, never decreases when inputs, outputs, sizes or rate grow, and a segwit flag never lowers it.", "quantifier": "all sizes, counts and rates", "why_tests_cant": "Monotonicity is about pairs of arguments over unbounded integers; rounding breaks it in corners that samples miss.", "anchors": ["bit/transaction.py:estimate_tx_fee"]}
{"id": "C29", "title": "Fee estimate covers the final size", "statement": "For P2PKH inputs with compressed keys and signatures of at most 72 bytes, and at most 252 inputs and outputs, the size estimate used for the fee is at least the byte size of the final signed transaction, so the effective fee rate is at least the requested one. For 253 or more inputs it can be smaller.", "quantifier": "every such transaction", "why_tests_cant": "The final size depends on counts, script types and signature lengths, which vary from run to run; a test sees one signature length.", "anchors": ["bit/transaction.py:estimate_tx_fee", "bit/network/meta.py:UNSPENT_TYPES", "bit/transaction.py:TxObj.__bytes__"]}
{"id": "C30", "title": "Coin selection returns distinct offered coins", "statement": "The selected coins are a sub-collection of the offered unspents: nothing is invented and nothing is selected more often than offered.", "quantifier": "every list of unspents, target, rate, options and every outcome of the random choices", "why_tests_cant": "The search flips coins and shuffles; a test sees one schedule of the random choices, the promise is about all of them.", "anchors": ["bit/transaction.py:select_coins"]}
{"id": "C31", "title": "Coin selection conserves value", "statement": "On return, selected amounts equal target plus change plus the fee paid; with change the fee is exactly the estimate for the selected coins and change is at least the minimum change; without change (perfect match) the fee covers overhead and inputs at the requested rate and exceeds it by at most the price of 182 bytes.", "quantifier": "every list of unspents, target, rate, options and random choices", "why_tests_cant": "Every schedule of the random choices leads to another selection, and each has to balance to the satoshi.", "anchors": ["bit/transaction.py:select_coins"]}
{"id": "C32", "title": "Absolute fees are exact", "statement": "With an absolute fee the selected amounts equal target plus change plus exactly that fee, whatever the sizes.", "quantifier": "every list of unspents, target, fee and random choices", "why_tests_cant": "As for any selection it has to hold for every outcome of the random choices, and for sizes that a test does not think of.", "anchors": ["bit/transaction.py:select_coins"]}
{"id": "C33", "title": "Perfect matches are found whenever the search is exhaustive", "statement": "If no coin costs more than it is worth, not all tries are needed, and some sub-collection lands in the match window, then coin selection without consolidation returns a changeless selection, for every outcome of the random choices.", "quantifier": "every list of at most 18 unspents and all random choices", "why_tests_cant": "There are 2^n subsets and as many coin-flip sequences; that no schedule misses an existing match is a statement about all of them.", "anchors": ["bit/transaction.py:select_coins"]}
{"id": "C34", "title": "The perfect match search is bounded", "statement": "The search makes at most one million steps plus the number of unspents, whatever the number of unspents.", "quantifier": "every list of unspents and all random choices", "why_tests_cant": "The search tree is exponential; a test measures one tree and one run.", "anchors": ["bit/transaction.py:select_coins"]}
{"id": "C35", "title": "Consolidation spends everything or reports insufficient funds", "statement": "With consolidation all offered unspents are selected in the given order, and InsufficientFunds is raised exactly when their total does not cover target, minimum change and fee estimate for all of them.", "quantifier": "every non-empty list of unspents, target, rate", "why_tests_cant": "The boundary between success and InsufficientFunds lies at an exact amount that depends on the sizes of all coins; tests stay away from it.", "anchors": ["bit/transaction.py:select_coins"]}
{"id": "C36", "title": "InsufficientFunds without consolidation", "statement": "Without consolidation InsufficientFunds is raised only if no perfect match was found and no prefix of the random order covers target, minimum change and fee; if every coin is worth its own fee increment it is raised only if all coins together do not suffice. In general it may be raised although a subset suffices.", "quantifier": "every list of unspents, target, rate and random choices", "why_tests_cant": "Whether the error is justified depends on the random order of the coins: a test with a fixed seed sees one order.", "anchors": ["bit/transaction.py:select_coins"]}
{"id": "C37", "title": "Built transactions pay what was asked", "statement": "Preparing transaction data returns the requested payments in order, then at most one change output to the leftover address, then the message outputs with amount zero; input total = output total + fee and change appears exactly when the remainder is positive.", "quantifier": "every unspent list, outputs, options and random choices", "why_tests_cant": "Payments, change and messages combine with every selection the random search may return; a test fixes one.", "anchors": ["bit/transaction.py:sanitize_tx_data"]}
{"id": "C38", "title": "Cross-network payments are refused", "statement": "Preparing transaction data succeeds only if every destination, including the change address when used, belongs to the network being spent from.", "quantifier": "every list of outputs and both networks", "why_tests_cant": "Every string that may be an address of the other network, as payment or change, has to be noticed; tests try one address of each kind.", "anchors": ["bit/transaction.py:sanitize_tx_data", "bit/format.py:get_version"]}
{"id": "C39", "title": "Messages are stored completely", "statement": "The message outputs concatenate to the UTF-8 message, each at most 80 bytes, none empty; each is an OP_RETURN output with zero amount whose script a Bitcoin parser reads as one push of the chunk (true for chunks up to 75 bytes, false for 76..80).", "quantifier": "every message", "why_tests_cant": "Chunk boundaries fall inside multi-byte characters and around the push opcode boundary at 76 bytes; a test message is short and ASCII.", "anchors": ["bit/transaction.py:sanitize_tx_data", "bit/transaction.py:construct_outputs", "bit/utils.py:chunk_data"]}
{"id": "C40", "title": "Amounts are encoded exactly or refused", "statement": "Each built output carries the 8-byte little-endian amount of its request; negative amounts and amounts of 2^64 satoshi or more raise OverflowError, zero-amount payments to an address raise TypeError: no output with a different amount is ever produced.", "quantifier": "every list of outputs with any integer amounts", "why_tests_cant": "The claim covers all integers, including negative ones and those that overflow eight bytes, and all destinations.", "anchors": ["bit/transaction.py:construct_outputs"]}
{"id": "C41", "title": "Replace-by-fee signalling", "statement": "With replace_by_fee every selected input has a sequence of at most 0xfffffffd and sequences already at or below it are untouched; without it sequences are unchanged.", "quantifier": "every list of unspents", "why_tests_cant": "All sequence numbers below, at and above the threshold, in every selection; a test uses the default sequence only.", "anchors": ["bit/network/meta.py:Unspent.opt_in_for_RBF", "bit/transaction.py:sanitize_tx_data"]}
{"id": "C42", "title": "Legacy signature hash", "statement": "The digest signed for a legacy input is the SIGHASH_ALL digest of the Bitcoin protocol: SHA-256 of the serialisation with all other input scripts emptied and the script code in the signed input, followed by the 4 byte hash type.", "quantifier": "every transaction, every input index, every script code", "why_tests_cant": "The digest must be right for every transaction shape (numbers of inputs and outputs, position, script lengths); a wrong digest yields signatures that look well-formed and that only a node rejects.", "anchors": ["bit/transaction.py:calculate_preimages", "bit/transaction.py:sign_tx"]}
{"id": "C43", "title": "BIP-143 signature hash", "statement": "The digest signed for a segwit input is the BIP-143 digest including the amount being spent.", "quantifier": "every transaction, every input index, every script code and amount", "why_tests_cant": "As for the legacy digest: every shape and amount, checked against BIP-143 and not against the code's own output.", "anchors": ["bit/transaction.py:calculate_preimages", "bit/transaction.py:sign_tx"]}
{"id": "C44", "title": "Signing touches only the key's own inputs", "statement": "Signing leaves version, lock time, outputs, outpoints and sequences unchanged, and leaves scriptSig and witness unchanged for every input whose outpoint is not among the given unspents spendable by the key.", "quantifier": "every transaction, key and list of unspents", "why_tests_cant": "It is about what signing does not touch, in every transaction and for every list of unspents, also foreign, duplicated or unknown ones.", "anchors": ["bit/transaction.py:sign_tx"]}
{"id": "C45", "title": "P2PKH inputs are signed validly", "statement": "After signing, a P2PKH input carries exactly a push of the signature over its SIGHASH_ALL digest with hash type byte 01 and a push of the public key; a nested P2WPKH input carries the push of its witness program and the two-item witness of signature over the BIP-143 digest and public key.", "quantifier": "every transaction, key, input", "why_tests_cant": "A test checks recorded signatures of a few transactions; that every own input of every transaction carries a signature for its own digest cannot be sampled.", "anchors": ["bit/transaction.py:sign_tx", "bit/wallet.py:PrivateKey"]}
{"id": "C46", "title": "Batch signing commutes", "statement": "Two keys signing disjoint sets of inputs of the same transaction give the same transaction in either order.", "quantifier": "every transaction, every pair of keys with disjoint inputs", "why_tests_cant": "Commutation is a relation between two runs over all transactions and all ways to share the inputs between the keys.", "anchors": ["bit/transaction.py:sign_tx", "bit/wallet.py:PrivateKey.sign_transaction"]}
{"id": "C47", "title": "Multisig signing order does not matter", "statement": "When m different co-signers sign a multisig input one after another, each receiving the previous hex, the resulting hex is the same for every order of the signers, with signatures sorted by contract key order.", "quantifier": "every contract, transaction and permutation of signers (m-of-n)", "why_tests_cant": "m signers have m! orders, and contracts have up to 15 keys; tests try one or two orders of two signers.", "anchors": ["bit/transaction.py:sign_tx", "bit/utils.py:get_signatures_from_script", "bit/wallet.py:MultiSig.sign_transaction"]}
{"id": "C48", "title": "Completed multisig inputs have exactly m signatures", "statement": "After m distinct signers the input consists of the empty item, exactly m signatures valid for the digest in contract order, and the redeem script, with the correct witness count; a further signature is refused with ValueError.", "quantifier": "every contract and transaction", "why_tests_cant": "Every contract and every set and order of signers; the item count of the witness is only wrong in particular stages.", "anchors": ["bit/transaction.py:sign_tx"]}
{"id": "C49", "title": "Signing twice with the same key", "statement": "Signing an already partially signed multisig input again with the same key should change nothing; in fact for segwit inputs of an m-of-n contract with m >= 2 the witness then declares m+2 items but contains m+1, so the transaction no longer parses. For legacy inputs it does no harm: any sequence of co-signers with repetitions, in which the last one signs for the first time, gives the same text as each of them signing once.", "quantifier": "every contract, transaction and sequence of co-signers", "why_tests_cant": "It depends on the history of signers; tests sign each input once per key.", "anchors": ["bit/transaction.py:sign_tx"]}
{"id": "C50", "title": "Unspent dictionaries round trip", "statement": "Turning an unspent into a dictionary and back gives the same unspent, and type, segwit flag and size stay consistent under every sequence of construction and re-typing.", "quantifier": "every unspent, every history of set_type calls", "why_tests_cant": "Objects are re-typed and exported in any order; the claim is an invariant over all such histories.", "anchors": ["bit/network/meta.py:Unspent.to_dict", "bit/network/meta.py:Unspent.from_dict", "bit/network/meta.py:Unspent.set_type"]}
{"id": "C51", "title": "Offline signing equals direct creation", "statement": "Preparing a transaction and signing the prepared text gives the same transaction as creating it directly from the same unspents, outputs and options (without message).", "quantifier": "every input, options and random choices", "why_tests_cant": "It compares two ways through the library over all coins, outputs and options; a test compares one result.", "anchors": ["bit/wallet.py:PrivateKey.prepare_transaction", "bit/wallet.py:PrivateKey.sign_transaction", "bit/wallet.py:PrivateKey.create_transaction"]}
{"id": "C52", "title": "Balance equals the sum of the unspents", "statement": "After refreshing, the key's balance is the sum of its unspents, which are the union of the unspents of both addresses with the right type; creating a transaction without consolidation from the stored list breaks the equality because the list is overwritten by the selection.", "quantifier": "every network answer and every history of calls", "why_tests_cant": "The list of coins is changed in place by later calls; which calls break the equality shows only over histories.", "anchors": ["bit/wallet.py:PrivateKey.get_unspents", "bit/wallet.py:PrivateKey.create_transaction", "bit/transaction.py:sanitize_tx_data"]}
{"id": "C53", "title": "Keys keep their identity through export formats", "statement": "Importing a key's WIF through wif_to_key gives a key of the same network with the same secret and compression; keys imported from bytes or integers are compressed; equality of keys is equality of secrets.", "quantifier": "every secret and format", "why_tests_cant": "All 2^256 secrets, both networks and compressions, in chains of exports and imports through all formats.", "anchors": ["bit/wallet.py:wif_to_key", "bit/wallet.py:BaseKey", "bit/wallet.py:PrivateKey.to_wif"]}
{"id": "C54", "title": "Vanity addresses have the prefix", "statement": "Whatever the interleaving of the worker processes, the reported address starts with the requested prefix (with '1' prepended if missing) and is the compressed-key address of the reported secret; invalid prefix characters raise ValueError before any work. The reported WIF however is the uncompressed form, whose address differs.", "quantifier": "every prefix, number of workers, schedule and key stream", "why_tests_cant": "The workers are processes; a test sees one interleaving and one prefix, and cannot observe a search that never ends.", "anchors": ["bit/keygen.py:generate_matching_address", "bit/keygen.py:generate_key_address_pairs", "bit/keygen.py:generate_key_address_pair"]}
{"id": "C55", "title": "Fee cache", "statement": "A cached fee is served without a request while it is nonzero and not older than the cache time; otherwise a request is made and its answer returned and stored; on connection failure the last stored fee or else the default is returned and nothing is stored; fast and hour fees never affect each other.", "quantifier": "every history of calls, clock readings, cache times and server answers", "why_tests_cant": "The cache has time, failures and two kinds of fee as inputs; stale answers show only after particular histories.", "anchors": ["bit/network/fees.py:get_fee_local_cache", "bit/network/fees.py:set_fee_cache_time"]}
{"id": "C56", "title": "Rate cache", "statement": "A cached exchange rate is served while not older than the cache time, otherwise exactly one refresh is attempted; a failed refresh raises and leaves the cache unchanged; currencies never affect each other.", "quantifier": "every history of calls, clock readings and service answers", "why_tests_cant": "One cache per currency, with time and failures; influence of one currency on another shows only in particular histories.", "anchors": ["bit/network/rates.py:currency_to_satoshi_local_cache", "bit/network/rates.py:currency_to_satoshi_cached"]}
{"id": "C57", "title": "Currency conversion rounds down", "statement": "Converting an amount to satoshi gives the integer part of amount times rate as long as the product fits the decimal precision; converting satoshi to a currency gives the quotient rounded down to the currency's precision.", "quantifier": "every decimal amount and rate", "why_tests_cant": "Decimals have any number of digits and the context rounds silently; a wrong last digit appears for amounts that tests do not use.", "anchors": ["bit/network/rates.py:currency_to_satoshi", "bit/network/rates.py:satoshi_to_currency"]}
{"id": "C58", "title": "Satoshi amounts survive formatting as bitcoin units", "statement": "Formatting a satoshi amount in satoshi, ubtc, mbtc or btc and converting the text back gives the same amount, for all amounts below 10^28; with decimal precision 9 (as set by a node balance query) this fails for amounts of ten digits.", "quantifier": "every satoshi amount, unit and precision", "why_tests_cant": "The round trip has to be exact for all amounts; rounding hits the ones with many digits, and depends on a global precision that a node query changes.", "anchors": ["bit/network/rates.py:satoshi_to_currency", "bit/network/rates.py:currency_to_satoshi", "bit/network/services.py:RPCHost.get_balance"]}
{"id": "C59", "title": "Service failover", "statement": "A query returns the answer of the first service in order that does not fail with an ignorable error, services after it are not contacted, a non-ignorable error propagates immediately, and ConnectionError is raised exactly when all fail ignorably.", "quantifier": "every list of services and every pattern of outcomes", "why_tests_cant": "Every pattern of failures over the services; a test mocks one or two patterns.", "anchors": ["bit/network/services.py:NetworkAPI", "bit/network/rates.py:RatesAPI"]}
{"id": "C60", "title": "Broadcast", "statement": "Broadcast returns normally iff some service accepts before any non-ignorable error; each service is contacted at most once, none after acceptance; the failure message is 'broadcast failed' iff some service answered False.", "quantifier": "every list of services and every pattern of outcomes", "why_tests_cant": "Every pattern of acceptances, refusals and failures; calling a further service after an acceptance shows only if one looks for it in each pattern.", "anchors": ["bit/network/services.py:NetworkAPI.broadcast_tx", "bit/network/services.py:NetworkAPI.broadcast_tx_testnet"]}
{"id": "C61", "title": "Connecting to a node affects only its network", "statement": "After connecting to a node for one network every query on that network goes to that node only and the other network's services are unchanged, in every history of connections.", "quantifier": "every history of connect calls", "why_tests_cant": "The lists are global state; the claim is about every history of connections on both networks.", "anchors": ["bit/network/services.py:NetworkAPI.connect_to_node"]}
{"id": "C62", "title": "Paginated queries return everything", "statement": "Suppose a block explorer pages through a fixed list of transactions or unspent coins in the way its documentation describes, answering in JSON. Then the query to this service returns the whole list, each item once, with the true amount, confirmations, script and outpoint of each coin, or it reports an excessive address; if the server may fail at any request it may raise instead, but never returns a part of the list as if it were all. Exceptions in the code, stated as such: Blockchair's reply that it does not know an address gives None instead of a list; Blockstream's and Bitcore's later pages are read without a look at the status; a failing Blockchain.info gives an empty list; status 400 from Blockstream is taken for an address without transactions; Blockstream on the test network gives confirmed transactions only, and an empty list for an address with too many coins.", "quantifier": "every server list length and page boundary", "why_tests_cant": "Servers hold lists of any length, so every number of pages and every page boundary occurs; live accounts in tests have one page.", "anchors": ["bit/network/services.py:BlockchairAPI", "bit/network/services.py:BlockstreamAPI", "bit/network/services.py:BlockchainAPI", "bit/network/services.py:SmartbitAPI", "bit/network/services.py:BitcoreAPI"]}
{"id": "C63", "title": "End to end: create_transaction", "statement": "If creating a transaction from explicit unspents succeeds, the returned hex deserialises to a transaction whose inputs are the selected unspents, whose outputs are the requested payments, change and messages, with input value minus output value equal to the fee, and every input spendable by the key is signed over the correct digest.", "quantifier": "every key, unspents, outputs, options and random choices", "why_tests_cant": "It composes selection, building and signing over all coins, outputs and options; a test compares one hex text with a recorded one.", "anchors": ["bit/wallet.py:PrivateKey.create_transaction", "bit/transaction.py:create_new_transaction", "bit/transaction.py:sanitize_tx_data", "bit/transaction.py:sign_tx"]}
{"id": "C64", "title": "Signed inputs pass script verification", "statement": "A Bitcoin script interpreter (pay-to-public-key-hash, BIP-16 pay-to-script-hash, BIP-141 witness programs, OP_CHECKSIG and OP_CHECKMULTISIG with the BIP-143 or legacy digest) accepts every input that a key, or enough co-signers of a contract, signed or created; it refuses every contract input signed by fewer co-signers than required.", "quantifier": "every key or contract, transaction, set of unspents and order of co-signers", "why_tests_cant": "A test can run an interpreter on a few signed transactions; acceptance has to hold for every transaction shape, every mix of coin types and every subset and order of signers.", "anchors": ["bit/transaction.py:sign_tx", "bit/wallet.py:PrivateKey.sign", "bit/wallet.py:MultiSig.sign", "bit/wallet.py:PrivateKey.create_transaction", "bit/wallet.py:MultiSig.create_transaction"]}
{"id": "C65", "title": "Sending: what is broadcast is what was created", "statement": "Sending from a single key hands exactly one transaction text to the services in order, the same text to each, stops at the first acceptance and returns that transaction's id; nothing is handed to any service when creation fails; the transaction handed over pays the requested amounts, spends only coins reported for the key and is fully signed. A ConnectionError does not mean that no service took the transaction.", "quantifier": "every key, wallet state, arguments, network answers and pattern of broadcast outcomes", "why_tests_cant": "The claim joins fetching, selection, signing and broadcasting; a test fixes one wallet and one pattern of service outcomes, while the promise is about money being sent in every combination.", "anchors": ["bit/wallet.py:PrivateKey.send", "bit/wallet.py:PrivateKeyTestnet.send", "bit/network/services.py:NetworkAPI.broadcast_tx"]}
{"id": "C66", "title": "The balance shown is the sum of the coins", "statement": "When fetching succeeds, the text returned by get_balance in a bitcoin unit denotes exactly the sum of all coins reported for both addresses of the key, and this sum is kept in the object; when fetching fails the same error is raised and no rate is cached.", "quantifier": "every key or contract, network answer, bitcoin unit, cache state and decimal precision of at least 9 digits", "why_tests_cant": "Exactness of decimal text has to hold for every amount; a test samples a few amounts far from the rounding and precision limits.", "anchors": ["bit/wallet.py:PrivateKey.get_balance", "bit/wallet.py:MultiSig.get_balance", "bit/network/rates.py:satoshi_to_currency_cached"]}
{"id": "C67", "title": "Transaction history covers both addresses", "statement": "get_transactions returns, and keeps, exactly the ids reported for the legacy address followed by those for the segwit address; failure of the first query keeps the old list, failure of the second keeps only the first part; a transaction concerning both addresses is listed twice.", "quantifier": "every key or contract, earlier history and network answer, including failures at each point", "why_tests_cant": "Each failure point leaves a different object state; a test fixes one answer per query.", "anchors": ["bit/wallet.py:PrivateKey.get_transactions", "bit/wallet.py:MultiSig.get_transactions"]}
{"id": "C68", "title": "What the network layer reports is what is on the chain", "statement": "Suppose the block explorers tell the truth whenever they answer (their replies are those their documentation describes, in as many pages as it takes). Then get_balance, get_transactions and get_unspent for an address give the value of all its unspent coins, the ids of all its transactions and exactly its unspent coins with their true amount, script, outpoint and confirmations, each once; or they raise. This holds whichever services are down or return errors on any of the requests, and whichever of them end up being used; if all are up nothing raises. It carries over to a key's refresh, to the text of its balance, to its history, and to send: every input of a transaction that was sent spends a coin the key really has and is accepted by the script interpreter for that coin's real script and value.", "quantifier": "every account (any number of outputs, transactions and confirmations), every way of splitting and ordering it into pages, every JSON value with the documented entries, every pattern of failures, both networks, every key and every set of outputs", "why_tests_cant": "Tests call live services or replay a few recorded replies; they cannot cover every account size, page boundary and combination of services that fail at some request.", "anchors": ["bit/network/services.py: NetworkAPI, BlockchairAPI, BlockstreamAPI, BitcoreAPI, SmartbitAPI, BlockchainAPI", "bit/wallet.py: get_unspents, get_balance, get_transactions, send"]}
{"id": "C69", "title": "A transaction is submitted to the services of its network and to nothing else", "statement": "Broadcasting a transaction text for a network sends requests only to the documented submission endpoints of that network's services, carrying exactly the given text; no request of a mainnet broadcast is ever one that a testnet broadcast could send, or the other way round. If the broadcast returns normally, one of these requests was answered with status 200. With a node connected for the network, only this node is given the transaction, and it answered without an error. (On the test network the Bitcore request names the coin BCH: proved as a limitation.)", "quantifier": "every transaction text, both networks, every pattern of replies and failures, every history of connections to nodes", "why_tests_cant": "A test mocks the HTTP client for one text and one pattern of failures; that no other request is ever sent is a statement about all worlds that agree on the permitted requests.", "anchors": ["bit/network/services.py: NetworkAPI.broadcast_tx, NetworkAPI.broadcast_tx_testnet, BlockchairAPI.broadcast_tx, BlockstreamAPI.broadcast_tx, SmartbitAPI.broadcast_tx, BitcoreAPI.broadcast_tx, BlockchainAPI.broadcast_tx, RPCHost.broadcast_tx"]}
{"id": "C70", "title": "A transaction looked up by id is the one on the chain", "statement": "If the services tell the truth about a transaction id whenever they answer, get_transaction_by_id gives the text of the transaction with this id, or None if there is none, or it raises; it does not raise if all services are up. An answer of an unreachable or failing service is never taken for a transaction or for its absence.", "quantifier": "every transaction id, every transaction text, both networks, every JSON value with the documented entries, every pattern of failures", "why_tests_cant": "Tests query a few known ids on live services; they cannot cover every combination of services that fail, report an unknown id in their own way, or answer.", "anchors": ["bit/network/services.py: NetworkAPI.get_transaction_by_id, NetworkAPI.get_transaction_by_id_testnet, BlockchairAPI.get_transaction_by_id, BlockstreamAPI.get_transaction_by_id, SmartbitAPI.get_transaction_by_id, BlockchainAPI.get_transaction_by_id"]}
{"id": "C71", "title": "Queries to a connected node report what the node knows", "statement": "With a node connected for the network of an address that its wallet watches, get_unspent gives exactly the unspent coins of the address with their true amount in satoshi (from the node's decimal amounts, as long as these have no more digits than the decimal precision: see C94), confirmations, script and outpoint, or raises; get_transactions gives the transactions the node lists as paying to the address, or raises. (The node's get_balance is the total ever received, rounded to nine digits, not the balance: proved as a limitation.)", "quantifier": "every account, every JSON reply with the documented entries, every decimal spelling of the amounts including exponents such as 1e-05, every failure of the node, every history of connections", "why_tests_cant": "A test with one mocked node reply cannot show that no amount is off by a satoshi after the detour over floating point and decimal text.", "anchors": ["bit/network/services.py: RPCHost, RPCMethod, NetworkAPI.connect_to_node"]}
{"id": "C72", "title": "Exchange rates are what the rate services say, rounded down", "statement": "If the rate services tell the truth whenever they answer, the rate used for a currency is 10^8 divided by the price of a bitcoin at the first service, rounded down to whole satoshi (for prices with up to 19 decimal places at the default precision); if the first service cannot be reached, or answers with an error status, it is what the second service says a unit is worth, rounded down. An amount of the currency is converted to a number of satoshi that is never more than its true worth, and less by under one satoshi per unit of the currency plus one. (Where a bitcoin costs more than 10^8 units the rate is zero, so every amount converts to nothing and no balance can be shown; a first reply that is not JSON is not recovered from: proved as limitations.)", "quantifier": "all 21 currencies, every price, every amount and spelling of a number, every JSON reply with the documented entries, every pattern of failures, every decimal precision from 9 on", "why_tests_cant": "Tests of rates call live services and check that some integer comes back; whether the chain of decimal division, multiplication and truncation is the exact floor for every price cannot be sampled.", "anchors": ["bit/network/rates.py: BitpayRates.currency_to_satoshi, BlockchainRates.currency_to_satoshi, RatesAPI, currency_to_satoshi"]}
{"id": "C73", "title": "Fees come from the server, for the speed asked for, and not older than the cache time", "statement": "Over any history of calls, at any times and with any failures of the server, a fee that get_fee_cached gives is the default or one that the server recommended, for the speed asked for, at the time of one of the calls so far. While the server is up the call does not raise, and the fee is recommended now or at a time within the cache time. get_fee gives the fee recommended now. (A reply without the entry, or not JSON, reaches the caller as an error although an older fee is known: proved as a limitation.)", "quantifier": "every sequence of calls of both speeds, every clock reading and cache time, every development of the recommended fees, every JSON reply with the documented entries, every pattern of failures", "why_tests_cant": "A test makes a few calls with a mocked clock; mixing the two caches, or serving a stale fee after some particular order of failures, shows only in long histories.", "anchors": ["bit/network/fees.py: get_fee_local_cache, get_fee_cached, URL"]}
{"id": "C74", "title": "A wallet recognises exactly the coins that pay to it", "statement": "For every key (and every multi-signature contract) and every unspent, can_sign_unspent answers True exactly if the unspent's script is the P2PKH script of the key's hash or, for a compressed key, the P2SH script of its witness program (for a contract: the P2SH script of its redeem script or, if all keys are compressed, of its witness program). The only exception is a wallet one of whose addresses happens to be a valid Bech32 text as well: there every call raises ValueError.", "quantifier": "every key, every contract whose object can be built, every unspent with any script, amount and type", "why_tests_cant": "A test compares a handful of scripts. That no other script is ever taken for the wallet's own, and that no own coin is missed for any key, is a statement about all keys and all scripts; the Bech32 exception has never been hit by a test.", "anchors": ["bit/wallet.py:PrivateKey.can_sign_unspent", "bit/wallet.py:MultiSig.can_sign_unspent", "bit/transaction.py:address_to_scriptpubkey"]}
{"id": "C75", "title": "The addresses of a contract pay to its redeem script", "statement": "For every list of public keys and every number m of signatures: the address of the contract carries the script version byte of its network and the HASH160 of a redeem script that parses as m-of-n over exactly these keys, the segwit address the HASH160 of the witness program of that redeem script. Each is recognised as an address of its network and paying to it produces exactly that P2SH script (unless its text is also a valid Bech32 text: then ValueError). Both addresses exist whenever m is at most the number of keys, all keys are 33 or 65 bytes long and the script is at most 520 bytes long.", "quantifier": "every list of public keys of any lengths, every m >= 1, both networks", "why_tests_cant": "Unit tests compare two or three fixed contracts with recorded addresses. An address that pays to another script loses the money for good, and it must not happen for any combination of keys.", "anchors": ["bit/format.py:multisig_to_address", "bit/format.py:multisig_to_segwit_address", "bit/format.py:multisig_to_redeemscript", "bit/transaction.py:address_to_scriptpubkey"]}
{"id": "C76", "title": "A created transaction pays the fee rate that was asked for", "statement": "For every key, every set of its own P2PKH and nested segwit coins and every fee rate, what a transaction created by create_transaction leaves to the miners is at least the rate times its BIP-141 virtual size, if all coins are combined (the default), all inputs are of the same kind, messages have at most 78 bytes per output, and there are at most 252 inputs and outputs. In all other cases up to 252 inputs and outputs it falls short of that by less than 2.25 bytes, plus a quarter of a byte for each legacy input mixed with segwit ones, plus 2 bytes for each message output. Each of the three shortfalls does occur in the code.", "quantifier": "every key, coin list, recipients, change address, message and rate; signatures of any length up to 71 bytes (low-S DER)", "why_tests_cant": "The size of the final transaction depends on the selected coins, on the recipients' script types, on the message and on the lengths of the signatures. Tests check the fee of a few fixed transactions against numbers produced by the same estimate; they do not compare the fee with the size of what is broadcast.", "anchors": ["bit/wallet.py:PrivateKey.create_transaction", "bit/transaction.py:sanitize_tx_data", "bit/transaction.py:estimate_tx_fee", "bit/transaction.py:select_coins", "bit/network/meta.py:Unspent"]}
{"id": "C77", "title": "Prepared data survive as text", "statement": "The text that prepare_transaction returns can be carried to another machine: it consists of printable ASCII characters only, json.loads gives back exactly what was written (also with white space around it), and the coins and payments read from it are the ones that were selected. The same holds for every JSON value, and two different values never have the same text.", "quantifier": "every JSON value (any nesting, every Unicode text as key or value, every integer, floats as Python prints them), every coin with an integer or float size, every prepared transaction", "why_tests_cant": "The texts include arbitrary addresses, escapes for every character outside ASCII and nested lists of any length. Tests write and read a few fixed dictionaries.", "anchors": ["bit/wallet.py:PrivateKey.prepare_transaction", "bit/wallet.py:PrivateKey.sign_transaction", "bit/network/meta.py:Unspent.to_dict", "bit/network/meta.py:Unspent.from_dict"]}
{"id": "C78", "title": "sign_transaction tells prepared data from hexadecimal transactions", "statement": "sign_transaction never takes a hexadecimal transaction for prepared data, even if its digits happen to be a JSON number, and never takes prepared data for a hexadecimal transaction: with a list of unspents it refuses prepared data with ValueError.", "quantifier": "every hexadecimal text, every prepared text, every key and multi-signature object, every list of unspents, every answer of the network", "why_tests_cant": "The two formats are told apart by trying one and swallowing every exception. Whether some text is valid in both ways is a question about all texts, of which tests try a few.", "anchors": ["bit/wallet.py:PrivateKey.sign_transaction", "bit/transaction.py:deserialize", "bit/utils.py:hex_to_bytes"]}
{"id": "C79", "title": "Prepared data may be rewritten by other programs", "statement": "The text that prepare_transaction returns is valid JSON, so every JSON tool can read it. sign_transaction reads every valid JSON text as the value it stands for, whatever its white space, order of entries, further entries, escapes and spellings of numbers. So a prepared transaction that was reformatted, reordered or written anew by another program is signed to exactly the same transaction, or fails where the original fails. Nothing but JSON is read as prepared data, apart from the words NaN, Infinity and -Infinity and half surrogate pairs that Python adds, and a text is read only as a value it stands for: sign_transaction refuses every text that is neither JSON nor hexadecimal.", "quantifier": "every text of the JSON grammar (RFC 8259; of a repeated key the last value counts), every text outside of it, every prepared transaction, every rewriting of it, every key and multi-signature object", "why_tests_cant": "There are infinitely many texts for the same data; tests sign the text that the library itself wrote.", "anchors": ["bit/wallet.py:PrivateKey.prepare_transaction", "bit/wallet.py:PrivateKey.sign_transaction", "bit/network/meta.py:Unspent.from_dict"]}
{"id": "C80", "title": "A contract with an invalid public key cannot be co-signed", "statement": "A multi-signature contract is accepted with any public keys of 33 or 65 bytes, also with bytes that are no point of the curve. Once an input of such a contract carries a signature, sign_transaction never returns a further signed transaction, whichever co-signer asks: co-signing stops after the first signature.", "quantifier": "every contract, invalid key, transaction with a signed input of the contract in legacy or segwit form, list of unspents and co-signer", "why_tests_cant": "The failure appears only on the second signature and depends on the contents of a key that nobody signs with; it must hold for every transaction, key and order of the co-signers.", "anchors": ["bit/wallet.py:MultiSig.__init__", "bit/wallet.py:MultiSig.sign_transaction", "bit/transaction.py:sign_tx", "bit/format.py:verify_sig", "bit/utils.py:get_signatures_from_script"]}
{"id": "C81", "title": "A completed contract transaction pays the fee rate asked for", "statement": "If the holder of one key of a multi-signature contract creates a transaction from coins of the contract as get_unspents() gives them, with a fee rate in satoshi per byte, and the other co-signers needed sign the returned text one after the other, then what the completed transaction leaves to the miners is at least the rate times its virtual size (BIP-141). This holds although the transaction is signed once when the fee is fixed and m times at the end. It holds exactly if all coins are used (the default), no message output is longer than 80 bytes of script, and the contract asks for at least two signatures or all coins are of the same kind; otherwise the shortfall is at most 9/4 bytes, a quarter of a byte for every input without witness beside one with a witness and two bytes for every message output. A 1-of-3 contract with coins of both kinds does fall short.", "quantifier": "all contracts (any m and n, compressed or uncompressed keys), all co-signers with signatures of at most 71 bytes, all lists of coins, arguments and fee rates; fewer than 253 inputs and outputs", "why_tests_cant": "The size of the completed transaction depends on m, n, the kind of the keys, the number and kinds of coins, the boundaries of the length prefixes (75/76, 252/253, 255/256) and on all signatures together; a test fixes one contract and seldom adds the last signature.", "anchors": ["bit/wallet.py:MultiSig.get_unspents", "bit/wallet.py:MultiSigTestnet.get_unspents", "bit/wallet.py:MultiSig.create_transaction", "bit/transaction.py:sanitize_tx_data", "bit/transaction.py:estimate_tx_fee", "bit/transaction.py:sign_tx"]}
{"id": "C82", "title": "A prepared transaction that was cut off, or has something behind it, is never signed", "statement": "If prepare_transaction returned a text, then sign_transaction of any proper beginning of this text raises, and so does sign_transaction of the text followed by anything other than white space. The same holds for the data in any other layout. It holds for every key class, with or without a list of unspents and whatever the network answers.", "quantifier": "all prepared transactions (any coins, outputs, fee, leftover), all places at which the text is cut, all texts put behind it, all wallets, lists of unspents and network answers", "why_tests_cant": "The transaction depends on numbers within the text; a cut could leave a shorter amount that is still a number. Tests can cut some texts at some places; the claim is for every text and every place, and sign_transaction catches all exceptions and tries another reading.", "anchors": ["bit/wallet.py: PrivateKey.prepare_transaction", "bit/wallet.py: PrivateKey.sign_transaction", "bit/wallet.py: MultiSig.sign_transaction", "bit/transaction.py: deserialize"]}
{"id": "C83", "title": "A signed transaction cannot be changed, and its id names one transaction", "statement": "Take a transaction signed with a single key, or completely signed by the co-signers of a contract, or returned by create_transaction. If another transaction carries one of the signed inputs (same script and witness) and a node accepts this input there for an output with the same script, then the other transaction has the same version, lock time, outputs, outpoints and sequence numbers, the input spends the same outpoint, and it is at the same place (no witness) or the value of the spent output is the same (witness). Two transactions for which calc_txid gives the same id differ at most in their witnesses. Assumed is only that no signature the input carries is valid for two different messages of the two transactions, and that double SHA-256 does not collide on the strings hashed for them.", "quantifier": "all transactions, keys, contracts, sets of unspents and signing orders, all other transactions whatsoever and all places of the input in them", "why_tests_cant": "The forgeries range over all transactions. Tests can flip some bits of some signed transactions; the claim is that the message that is signed determines every part of the transaction, for any number of inputs and outputs and scripts of any length.", "anchors": ["bit/transaction.py: calculate_preimages", "bit/transaction.py: sign_tx", "bit/transaction.py: calc_txid", "bit/wallet.py: PrivateKey.sign_transaction", "bit/wallet.py: PrivateKey.create_transaction", "bit/wallet.py: MultiSig.sign_transaction"]}
{"id": "C84", "title": "Threads may share the caches of fees and rates", "statement": "Several threads may call get_fee_cached or currency_to_satoshi_cached at the same time, and another thread may run between any two accesses to the shared variables. A call never returns None, never a value of another kind of fee or another currency, and ends after seven steps of its own whatever the others do. Without a request of its own it returns what the server answered to a call that had not returned before the cache time ago; after an answered request, what the server answered to a call that had not returned before this call began. After a failed connection a fee is an earlier answer, or the default, and the default only if no call with an answer had returned before the failure. All other failures reach the caller that met them, and a failure to get a rate always does. A call that is not interrupted behaves like a call in a single thread. The freshness cannot be measured from the time of the answer: an interleaving is given in which a call gets, without a request, an answer older than the cache time.", "quantifier": "all schedules: any number of threads and calls, any interleaving of their accesses, any passing of time between them, any answers and failures of the servers, any changes of the cache time", "why_tests_cant": "The interleavings are chosen by the thread scheduler. A stress test sees a few of them and the harmful ones need a pause of minutes between two lines; the claim is for every schedule of every length.", "anchors": ["bit/network/fees.py: get_fee_local_cache", "bit/network/fees.py: get_fee_cached", "bit/network/fees.py: set_fee_cache_time", "bit/network/rates.py: currency_to_satoshi_local_cache", "bit/network/rates.py: currency_to_satoshi_cached", "bit/network/rates.py: set_rate_cache_time"]}
{"id": "C85", "title": "Calls of create_transaction change only the list they are given", "statement": "Unspents, lists of unspents and keys are objects that a program may share. What create_transaction returns depends only on the contents of these objects. A call with a nonempty list of unspents, successful or not, changes nothing but that list (in place) and, with replace_by_fee, the sequence numbers of the unspents left in it; after InsufficientFunds everything is as before. After success the list holds exactly the coins that the transaction spends, in the order of its inputs and with their sequence numbers. prepare_transaction changes as little. get_unspents returns the list of the key itself, filled with new objects, and touches no existing unspent and no other list or key. Over any history an unspent keeps all its fields except that the sequence number may become 0xfffffffd, and it keeps that too unless some call asks for replaceability; once it is lowered, all later transactions from that object signal replaceability. Three consequences are shown with witnesses: a call without replace_by_fee is affected by an earlier one with it, a payment fails because an earlier call that was never sent has shortened the list, and a list got from get_unspents is changed by later calls that do not mention it.", "quantifier": "all programs: any number of unspent objects, lists and keys with any sharing, any sequence of calls with any arguments, service answers, random choices and failures", "why_tests_cant": "Aliasing bugs depend on which objects are shared and on the history of calls. A test covers one sharing pattern and one order; the claim is for all of them.", "anchors": ["bit/transaction.py: sanitize_tx_data", "bit/transaction.py: select_coins", "bit/network/meta.py: Unspent.opt_in_for_RBF", "bit/wallet.py: PrivateKey.create_transaction", "bit/wallet.py: PrivateKey.get_unspents", "bit/wallet.py: PrivateKey.prepare_transaction", "bit/wallet.py: MultiSig.create_transaction"]}
{"id": "C86", "title": "create_transaction refuses a payment for lack of funds exactly when it must", "statement": "If create_transaction with explicit unspents fails, the exception is one of the conversion of an amount, or ValueError, TypeError, IndexError, OverflowError or AttributeError, or InsufficientFunds. The last is raised only if all given coins together are worth less than the payments plus the fee for spending all of them, which is the given fee or the rate times the estimated size with a change output; so coins that suffice in this sense are never refused, whatever the random choices of coin selection. With consolidation the converse holds as well: if amounts, addresses and message are in order and the coins are worth less, InsufficientFunds is raised.", "quantifier": "all keys and contracts, all nonempty lists of unspents, all payments, fees, messages, change addresses and options, all outcomes of the random choices", "why_tests_cant": "Coin selection shuffles the coins and flips coins while searching; a wrongful refusal may show for one shuffle in a million. Which exceptions are possible is a statement about every input.", "anchors": ["bit/wallet.py: PrivateKey.create_transaction", "bit/wallet.py: MultiSig.create_transaction", "bit/transaction.py: sanitize_tx_data", "bit/transaction.py: select_coins", "bit/exceptions.py: InsufficientFunds"]}
{"id": "C87", "title": "A key and the chain: payments are valid, and the books balance over any history", "statement": "The chain is a set of unspent outputs. If the services report the unspent outputs of a key as they are, then the transaction that create_transaction returns (without explicit unspents) is one that a node takes: it spends distinct unspent outputs of the key only, every input satisfies the script of what it spends, there is an output, and the outputs are not worth more than the inputs. When it is confirmed, all unspent outputs together are worth less by exactly the fee; every script that is not one of the key's gains exactly what was paid to its addresses (and the change, if the change address is one); the key loses the payments to others and the fee. If all coins are used, the change is all that is left of the key's coins. After any history of own payments with default change, of transactions by others and of newly mined coins, the key holds what it held before plus what it received minus payments to others and fees, and get_balance shows exactly this.", "quantifier": "all keys, all well-formed sets of unspent outputs, all histories of payments, receipts and new coins of any length, all honest services, all arguments and random choices", "why_tests_cant": "That money is neither lost nor made up is a statement about every sequence of payments; a test runs a few payments against recorded answers of services and never confirms them.", "anchors": ["bit/wallet.py: PrivateKey.create_transaction", "bit/wallet.py: PrivateKey.get_unspents", "bit/wallet.py: PrivateKey.get_balance", "bit/wallet.py: PrivateKey.sign_transaction", "bit/transaction.py: create_new_transaction", "bit/transaction.py: sanitize_tx_data", "bit/transaction.py: construct_outputs"]}
{"id": "C88", "title": "Payments that are in order and can be paid for are made", "statement": "If a request is in order (positive amounts in known currencies, addresses that can be paid to and belong to the network of the key, a message that can be stored, a fee that is not negative) and the given unspents together cover what was asked for, i.e. the payments plus the fee for spending them all, then create_transaction returns a transaction: nothing else can make it fail, whatever the random choices of coins are. When all unspents are to be spent (combine) this is exact: the call succeeds if they cover it and raises InsufficientFunds if not. The same holds for a multi-signature contract, whose created transaction its further co-signers, up to the required number, can then all sign; creating it needs no assumption on the signatures of the others. If the services report the chain as it is and the key holds enough there, the transaction returned is one that a node takes.", "quantifier": "all keys and contracts, all lists of unspents, all payments, messages, fee rates, options, random choices and orders of coins", "why_tests_cant": "A test shows that some payments succeed; that no payment in order is ever refused, by any branch of the selection of coins, building, encoding or signing, is a statement about all of them.", "anchors": ["bit/wallet.py: PrivateKey.create_transaction", "bit/wallet.py: MultiSig.create_transaction", "bit/wallet.py: MultiSig.sign_transaction", "bit/transaction.py: sanitize_tx_data", "bit/transaction.py: select_coins", "bit/transaction.py: construct_outputs", "bit/transaction.py: create_new_transaction", "bit/transaction.py: sign_tx"]}
{"id": "C89", "title": "Signing depends only on the coins spent", "statement": "What sign_transaction returns, or the error it raises, depends only on those of the given unspents that the transaction spends and that the key or contract can sign, and of these only on the kind and, for segwit ones, the amount. Other unspents in the list, the order of the list, confirmations and the amounts of legacy unspents make no difference. So the co-signers of a contract may each use a list they fetched themselves: as long as the lists tell of the same coins, the result is the one for the list of whoever created the transaction. A consequence: for legacy coins the signature does not commit to the amounts stated, so a wrong amount goes unnoticed.", "quantifier": "all keys and contracts, all transactions, all pairs of lists of unspents, any number of co-signers with a list each", "why_tests_cant": "It compares two runs on arbitrary lists; a test can only compare some pairs of lists.", "anchors": ["bit/transaction.py: sign_tx", "bit/wallet.py: PrivateKey.sign_transaction", "bit/wallet.py: MultiSig.sign_transaction", "bit/wallet.py: PrivateKey.can_sign_unspent", "bit/wallet.py: MultiSig.can_sign_unspent"]}
{"id": "C90", "title": "A contract and the chain: co-signed payments are valid, and the books balance over any history", "statement": "If services report the chain as it is, and the holder of one key of a multi-signature contract creates a transaction and the other co-signers needed each call sign_transaction on it, with contract objects and services of their own, then every one of these calls succeeds (if the services answer), and the result is a transaction that a node takes: it spends unspent outputs of the contract, each once, with all scripts satisfied, and pays no more than it spends. When it is confirmed, every script of others has what it had plus what was paid to it, the contract has what it had minus the payments and the fee (change goes back to the contract unless another address is given, and is all that is left if all coins are used), and the chain loses the fee. Over any history of payments, by any of the co-signers in any turn, of payments of others and of mined coins, what belongs to the contract is what it had plus what it received minus what it paid and the fees; and get_balance shows exactly that number. Conversely, if the services answer, a payment in order for which the contract holds enough can be created and signed by the co-signers needed, and a node takes it.", "quantifier": "all contracts, co-signers, chains, payments, options and random choices, all honest services (which may differ in order and confirmations), all histories", "why_tests_cant": "It is about all chains, all co-signers' views and all histories; a test fixes one of each, and the tests of the repository have no chain.", "anchors": ["bit/wallet.py: MultiSig.create_transaction", "bit/wallet.py: MultiSig.sign_transaction", "bit/wallet.py: MultiSig.get_unspents", "bit/wallet.py: MultiSig.get_balance", "bit/transaction.py: sign_tx", "bit/transaction.py: create_new_transaction"]}
{"id": "C91", "title": "From the replies of the services to the chain: send, balance and co-signing end to end", "statement": "Suppose that whatever the web services say about the addresses of a key is what the chain has (in the reply formats of each service; any of them may fail at any time). Then, if send of a new key object returns, what it returns is the id of a transaction that a service took, which a node takes too: it spends unspent outputs of the key only, each once, with all scripts satisfied, and pays no more than it spends. If get_balance returns, it shows exactly what belongs to the key on the chain. The same holds for transactions of a contract whose co-signers each ask services of their own. If all services answer, fetching the unspents succeeds, and every payment in order that the key, or the contract with the co-signers needed, can pay for gives a transaction that a node takes.", "quantifier": "all keys, contracts, chains, payments, options, random choices, and all replies of the services that are true, whichever of them fail", "why_tests_cant": "It spans reply formats, paging, retries, coin selection, signing and consensus rules for all chains; tests mock the services and have no chain.", "anchors": ["bit/wallet.py: PrivateKey.send", "bit/wallet.py: PrivateKey.get_unspents", "bit/wallet.py: PrivateKey.get_balance", "bit/wallet.py: MultiSig.create_transaction", "bit/wallet.py: MultiSig.sign_transaction", "bit/network/services.py: NetworkAPI", "bit/network/services.py: BlockstreamAPI", "bit/network/services.py: BlockchairAPI"]}
{"id": "C92", "title": "Several keys pay together", "statement": "Any number of keys can sign one transaction, each the inputs of their own, one after the other. If no input belongs to two of them, the order does not matter: if signing works in one order it works in every order and gives the same text, in which the network accepts every input that belongs to one of the keys and every other input is as it was. If one of the keys creates a transaction from unspents that each belong to one of the keys, and the others sign what came back with the same unspents, then none of the others fails (given ordinary addresses), and the final text is a transaction that a node takes: it spends outputs of the keys only, each once, pays as asked, and the change goes to the key that created it or to the address given. The keys together lose exactly the payments to others and the fee.", "quantifier": "any number of keys in any order, all transactions, all lists of unspents, payments, options, random choices and chains", "why_tests_cant": "Orders and combinations of keys and coins are unbounded; the tests sign with one key and one order.", "anchors": ["bit/wallet.py: PrivateKey.create_transaction", "bit/wallet.py: PrivateKey.sign_transaction", "bit/transaction.py: sign_tx", "bit/transaction.py: create_new_transaction"]}
{"id": "C93", "title": "Keys and signatures with the real curve and hash functions", "statement": "With SHA-256, RIPEMD-160 and ECDSA on secp256k1 as the standards define them, for every valid private key: the public point is the multiple of the base point by the secret number, an affine point of the curve, and written as bytes it is the public key. Two keys compare equal exactly if their public points are equal, and the same public key bytes mean the same secret and the same form. A signature is a DER sequence of two numbers in range, of 8 to 71 bytes, the second in the lower half; `verify` and the verification under the public key bytes accept it for the data it was made for, whatever secret number was used; of pairs of numbers in range `verify` accepts exactly the ECDSA signatures in that half, and what does not start like DER is a ValueError. So what the other properties ask of keys holds for every valid key; in particular the network accepts what `sign_transaction` signs, and what enough co-signers of a contract of such keys sign. A signature of one key does not verify under the public key of another secret, except where the two secret numbers and the numbers of the signature satisfy one particular equation (this can occur, and is shown to), or its first number is below the difference of the two primes. A signature can always be made.", "quantifier": "every valid private key and pair of keys, all data, all choices of the secret number in a signature, all pairs of numbers as signatures, all transactions and lists of unspents", "why_tests_cant": "There are about 2^256 keys; that no two have the same public key and that every signature verifies follow from the order of the group only.", "anchors": ["bit/wallet.py: BaseKey.public_point", "bit/wallet.py: BaseKey.sign", "bit/wallet.py: BaseKey.verify", "bit/wallet.py: BaseKey.__eq__", "bit/format.py: point_to_public_key", "bit/format.py: verify_sig", "bit/curve.py: GROUP_ORDER"]}
{"id": "C94", "title": "How many digits amounts have over a history of calls", "statement": "After any history of calls (connecting nodes, asking for balances and unspents, converting amounts with and without the cache) in a thread: if the balance of an address was ever asked for from a connected node, decimal numbers have nine digits from then on, otherwise 28, and no other call changes this. With P digits: amounts in satoshi, ubtc, mbtc and btc whose number of satoshi has at most P digits are converted exactly in both directions, and the unspents of a truthful node are exact; from 10^P satoshi on (ten bitcoin after such a query) every conversion to satoshi and every amount in the node's unspents is a multiple of ten satoshi, right or not, and converting to a unit raises InvalidOperation.", "quantifier": "every history of calls in a thread, whatever nodes and services answer in each call, every amount and unit, every truthful node", "why_tests_cant": "The effect of one call shows only in later, unrelated calls of the same thread; tests of single calls run in a fresh context and pass.", "anchors": ["bit/network/services.py: RPCHost.get_balance", "bit/network/services.py: RPCHost.get_unspent", "bit/network/services.py: NetworkAPI.connect_to_node", "bit/network/services.py: NetworkAPI.get_balance", "bit/network/rates.py: currency_to_satoshi", "bit/network/rates.py: currency_to_satoshi_cached", "bit/network/rates.py: satoshi_to_currency", "bit/network/rates.py: satoshi_to_currency_cached"]}
{"id": "C95", "title": "Raising the fee of a payment: the second transaction replaces the first and pays nobody twice", "statement": "create_transaction is called with replace_by_fee, and then again with the same unspents and the same arguments but for a higher fee (with combine, the default). Then the second transaction spends the same coins in the same order and has the same payments and messages; only the change is smaller, by exactly what the fee is larger. All inputs of the first signal replaceability (BIP-125). If an absolute fee is raised by at least the virtual size of the second transaction, or a fee rate by one satoshi per byte or more (with inputs of one kind and no message script longer than 80 bytes), nodes take the second in place of the first under BIP-125; in general the increase falls short by at most what is known from the estimate of the size. The same holds for contracts with all co-signatures, also when other co-signers complete the second. Of the two only one can ever be confirmed, in either order.", "quantifier": "all keys and contracts, all coins, payments, messages, change addresses, fees before and after, random choices and signatures", "why_tests_cant": "Whether the second transaction replaces the first depends on the bytes of both for every combination of arguments and coins; tests look at one transaction at a time, and a mistake pays twice or is refused by nodes only.", "anchors": ["bit/wallet.py: PrivateKey.create_transaction", "bit/wallet.py: MultiSig.create_transaction", "bit/network/meta.py: Unspent.opt_in_for_RBF", "bit/transaction.py: sanitize_tx_data", "bit/transaction.py: select_coins", "bit/transaction.py: estimate_tx_fee"]}
{"id": "C96", "title": "Sending everything: nothing remains, and nobody else's money moves", "statement": "If a key (or a contract, with its co-signers) calls create_transaction without payments and messages, with an address of somebody else as leftover and with combine (the default), and services report the chain as it is, then a transaction returned has one output, to that address, with everything the key has but for the fee, and nodes take it if anything is left. When it is confirmed the key has nothing left, the address has exactly that much more, and all other scripts have what they had. (If the coins are worth exactly the fee, a transaction without outputs is returned, which no node takes; and change of a single satoshi is paid out, though nodes do not relay it.)", "quantifier": "all keys and contracts, all chains, honest services, addresses, fees and random choices", "why_tests_cant": "It is a statement about all coins a key can have and about all other scripts on the chain, before and after.", "anchors": ["bit/wallet.py: PrivateKey.create_transaction", "bit/wallet.py: MultiSig.create_transaction", "bit/wallet.py: MultiSig.sign_transaction", "bit/transaction.py: sanitize_tx_data", "bit/transaction.py: select_coins"]}
{"id": "C97", "title": "Amounts in currencies over the life of a program: from the text of an amount to the chain", "statement": "A program imports the package and makes any calls of one thread: conversions, balances, connecting nodes, setting cache times, asking for fees, creating and sending transactions, of any keys and contracts. If a later create_transaction returns, it is the transaction for payments in satoshi, in the order given, where each amount is the whole part of its product with a rate: for a bitcoin unit the exact number of satoshi; for another currency a rate that the services gave for that currency in this call, or in an earlier call not longer ago than the cache time set last. The fee is the one given, or if none (or 0) was given one that the server recommended now, or not longer ago than the fee cache time set last, or, only if the server cannot be reached, an older one or the default of 72. If unspents, a fee and amounts in bitcoin units are given, the result does not depend on the network, the time or anything the program did before. If the unspents are asked for, no node was connected for the network, and the services that answer report the chain as it is, nodes take the transaction (unless the fee is negative), and once it is confirmed every script of others has exactly the converted amounts more, and the key loses them and the fee. The same holds for a contract whose co-signers use programs of their own. If send returns, it returns the id of that transaction, and a service took it.", "quantifier": "all histories of calls, all replies of services, fee servers and rate services at any time, all keys, arguments and random choices", "why_tests_cant": "The result depends on caches filled by calls long before, on times and on the replies of many services; tests convert an amount or create a transaction once, from a fresh state.", "anchors": ["bit/wallet.py: PrivateKey.create_transaction", "bit/wallet.py: PrivateKey.send", "bit/wallet.py: PrivateKey.get_unspents", "bit/transaction.py: sanitize_tx_data", "bit/network/rates.py: currency_to_satoshi_cached", "bit/network/rates.py: CachedRate", "bit/network/fees.py: get_fee_cached", "bit/network/services.py: NetworkAPI.get_unspent", "bit/network/services.py: NetworkAPI.broadcast_tx"]}
{"id": "C98", "title": "A node is asked exactly what was called, at the place given, and payments over a node are good on the chain", "statement": "NetworkAPI.connect_to_node takes a user, password, host, port, path and whether to use https. The URL that is asked reads (by the rules of URLs) as exactly these, if name, password and host have none of the characters that separate the parts of URLs, nor percent signs. A slash, question mark or hash in the name or password is not escaped: the request then goes to a place read from the name and password. Every call of a method, with dots or without, on any parameters, posts a JSON text that is a JSON-RPC request for exactly this method and these parameters in order; two different calls never post the same text. So the reply is that of the node to this call. Broadcasting gives True exactly if the node took the transaction (a result, no error), False if it refused it, and the node gets exactly the transaction. With a program connected to a node that tells the truth about the addresses of a key, the unspents are exactly those on the chain; if send returns, it returns the id of a transaction that the rules of the chain allow, that spends coins of the key only, and that the node took; and if the node answers and takes what the rules allow, a payment that is in order and for which the key holds enough goes through. The same holds for a contract whose co-signers are each connected to a node of their own.", "quantifier": "all settings, methods, parameters (nested JSON values), replies of the node, chains, keys and payments", "why_tests_cant": "Tests mock the session and look at one method; whether a name, a password or a parameter with quotes, backslashes or characters outside ASCII reaches the node as it was given concerns every text.", "anchors": ["bit/network/services.py: RPCHost", "bit/network/services.py: RPCMethod", "bit/network/services.py: NetworkAPI.connect_to_node", "bit/wallet.py: PrivateKey.send", "bit/wallet.py: PrivateKey.get_unspents"]}
{"id": "C99", "title": "Co-signing a text that holds anything: valid signatures are kept, everything else goes, and no signature is invented", "statement": "A co-signer of a contract is given the text of a transaction that others made, and signs it. The inputs of the contract may hold any bytes in their scripts; in the witness of an input, items that look like signatures are asked to be valid ones of different other keys. If signing succeeds, the result is a transaction with the same outpoints, sequence numbers and outputs, and inputs that are not the contract's are unchanged. An input of the contract then holds the co-signer's signature and, besides, only signatures that were in the text before and verify under other keys of the contract for this input, in the order of the keys and at most as many as the contract asks for; every item that is a valid signature of a key is represented. If the text held, among anything else, valid signatures of all but one of the keys needed, the result is accepted by the script interpreter. Reading an input never fails because of bytes of the contract's own script that look like a signature, and such bytes are not mistaken for one unless they verify. The type byte of a signature that was found is not checked: with a signature of another type the result is refused by the network although no error is reported. If an item of a witness looks like a signature and is none, the result is not the encoding of any transaction, also without an error.", "quantifier": "all contracts and keys of secp256k1 or of any scheme with the stated laws, all transactions with any bytes in their scripts, all lists of coins", "why_tests_cant": "Tests co-sign texts the library made itself; what a text from elsewhere may hold, and which bytes of a contract's script happen to look like a signature, ranges over all byte strings.", "anchors": ["bit/transaction.py: sign_tx", "bit/utils.py: get_signatures_from_script", "bit/wallet.py: MultiSig.sign", "bit/wallet.py: MultiSig.sign_transaction"]}
{"id": "C100", "title": "The secret stays in the object: everything else depends on it only through the public key and the signatures", "statement": "Apart from `to_wif`, `to_hex`, `to_bytes`, `to_der`, `to_pem`, `to_int` and `==`, nothing that is done with a key or a contract tells more about the secret than its public key and the signatures asked for. For every history of calls on an object, with any answers of the services: all results and exceptions, the text of `repr`, the attributes and the texts that are sent are the same as those of an object that holds no secret, but a device that knows the public key and signs. Two objects with different secrets and the same public key and signatures cannot be told apart by any history. All but `sign`, `create_transaction`, `sign_transaction` and `send` needs the public key only. A contract is made from the public key of its key alone, and `prepare_transaction` knows no key at all.", "quantifier": "all cryptographic functions, all keys and contracts, all histories of calls, all answers of the network, all random choices", "why_tests_cant": "A test can look for a secret in one output; that no output, request or attribute carries any information about it is a statement about pairs of executions, for all secrets and histories.", "anchors": ["bit/wallet.py: BaseKey", "bit/wallet.py: PrivateKey", "bit/wallet.py: PrivateKeyTestnet", "bit/wallet.py: MultiSig", "bit/wallet.py: MultiSigTestnet", "bit/transaction.py: sign_tx", "bit/transaction.py: create_new_transaction"]}
{"id": "C101", "title": "Only the messages of the one transaction asked for are signed", "statement": "For `create_transaction` and `send`, with the stored, given or fetched coins, for `sign_transaction` of a transaction in hexadecimal, and for `sign_transaction` of prepared data: the result needs signatures only for the messages that the network computes for inputs of one transaction, which is the one asked for (built from the coins as C63 says, or the one that was handed in), and among its inputs only for those that spend a coin of the object. A signing device for the public key that answers these messages and refuses or garbles every other message gives the same transaction text, the same texts handed to the services, the same transaction id and the same object afterwards. So no signature is made that could serve another transaction or other amounts, except where SHA-256 gives the same digest.", "quantifier": "all cryptographic functions, all keys and contracts, all coins whose transaction ids are 64 hexadecimal digits, all arguments, all answers of the services, all random choices, all devices for the public key", "why_tests_cant": "A test sees the signatures in one result. That the result does not depend on the signature of any other message is a statement about all devices at once.", "anchors": ["bit/transaction.py: create_new_transaction", "bit/transaction.py: sign_tx", "bit/transaction.py: calculate_preimages", "bit/wallet.py: PrivateKey.create_transaction", "bit/wallet.py: PrivateKey.send", "bit/wallet.py: PrivateKey.sign_transaction", "bit/wallet.py: MultiSig.create_transaction", "bit/wallet.py: MultiSig.sign_transaction"]}
{"id": "C102", "title": "A transaction text that was cut off never becomes a transaction by signing", "statement": "Reading notices only some cuts (C26), so `sign_transaction` may be given the beginning of a transaction text without noticing. Whatever transaction the text was cut from and whatever unspents are given, a key then raises or returns a text that is not a transaction with inputs in either serialisation: the lock time is missing for good, and neither new nor old witnesses can take its place. The same holds for the signers of a contract if the transaction has no witnesses. If the cut is in the middle of a byte, the digits are moved by one, and the same holds for keys and contracts alike if the version is below 2^24 and there are witnesses or fewer than 15 inputs.", "quantifier": "all cryptographic functions with results of the right sizes, all keys and contracts, all transactions with at least one input, all places to cut, all lists of unspents", "why_tests_cant": "A test cuts one transaction at a few places; that no cut of any transaction can be completed to a transaction by what signing writes ranges over all transactions, cuts and signatures.", "anchors": ["bit/transaction.py: deserialize", "bit/transaction.py: sign_tx", "bit/utils.py: hex_to_bytes", "bit/utils.py: read_bytes", "bit/wallet.py: PrivateKey.sign_transaction", "bit/wallet.py: MultiSig.sign_transaction"]}
{"id": "C103", "title": "Threads that refresh one key at the same time", "statement": "Several threads may call get_unspents (or get_balance, create_transaction, send, which call it) or get_transactions of one key or contract object at the same time, and another thread may run between any two steps. In every interleaving the list then holds only items that were there before or were reported to one of the calls, it begins with all that was reported for the address to one call, followed by what was reported for the segwit address to some of the calls, once per call and including that call if it has returned; and the balance is the old one or a sum of amounts of such items. A call that no other interrupts has exactly the effect of a call in a single thread, whatever the others left behind. But items of the segwit address can be listed and counted twice, the balance can be that of an older answer than the list, and from a list with a coin twice a transaction can be created that needs more than the coins have and names a coin twice.", "quantifier": "all schedules: any number of threads and calls, any interleaving of their steps, any answers and failures of the services", "why_tests_cant": "Tests run one thread, or a few schedules by chance; the statement is about every interleaving of any number of calls.", "anchors": ["bit/wallet.py: PrivateKey.get_unspents", "bit/wallet.py: PrivateKey.get_transactions", "bit/wallet.py: PrivateKeyTestnet.get_unspents", "bit/wallet.py: MultiSig.get_unspents", "bit/wallet.py: MultiSigTestnet.get_unspents", "bit/wallet.py: PrivateKey.create_transaction"]}
{"id": "C104", "title": "Connecting to a node while other threads use the services", "statement": "Threads may ask for balances, transactions and coins and broadcast transactions while other threads call connect_to_node, and another thread may run between any two steps. In every interleaving, each question and each broadcast works with one list of services from beginning to end: the services there were at first, in their order, if no connection on its network had returned when it began; or one node alone, whose connection had begun on that network and had not been replaced by a later connection that had returned. Its end is determined by what those services gave to it, as in a program with one thread. So once a node has been connected and no other on that network, every call that begins then goes to this node alone; a connection on one network changes nothing on the other; and a connection that is not interrupted does what it does in one thread. But two connections at the same time can leave the coins with one node and the broadcast with the other after both have returned, and during a connection the balance can come from the node and the coins still from the services.", "quantifier": "all schedules: any number of threads, connections, questions and broadcasts, any interleaving of their steps, any answers and failures of the services", "why_tests_cant": "Tests run one thread, or a few schedules by chance; the statement is about every interleaving of any number of calls.", "anchors": ["bit/network/services.py: NetworkAPI.connect_to_node", "bit/network/services.py: NetworkAPI.get_balance", "bit/network/services.py: NetworkAPI.get_unspent", "bit/network/services.py: NetworkAPI.broadcast_tx"]}
{"id": "C105", "title": "A payment to a mistyped segwit address is not made", "statement": "If one of the destinations of a payment, or the address for its change, is a valid segwit address in which between one and four characters after the separator were replaced by any other characters, then no transaction is made from it, by whichever kind of wallet and from whichever coins: create_transaction and prepare_transaction raise, and send raises without handing anything to a service. This needs no assumption on the digest functions for texts as long as the segwit address of a key (on the test networks also as long as that of a script); for other lengths it supposes that the text is not by chance a Base58Check text with the version byte of an address.", "quantifier": "every valid segwit address of every network, every one to four positions and replacement characters, every wallet, coins, amounts, further destinations, fee, services and answers", "why_tests_cant": "The typing errors, wallets and surroundings are unbounded; tests try a few bad addresses with one wallet.", "anchors": ["bit/base32.py: bech32_decode", "bit/transaction.py: address_to_scriptpubkey", "bit/transaction.py: sanitize_tx_data", "bit/format.py: get_version", "bit/wallet.py: PrivateKey.create_transaction", "bit/wallet.py: PrivateKey.send", "bit/wallet.py: PrivateKey.prepare_transaction"]}
{"id": "C106", "title": "What the checksum of segwit addresses does not catch", "statement": "A text with a segwit prefix that ends in p is a valid Bech32 text exactly if it is one with any number of letters q inserted before that p (up to 90 characters). Two segwit addresses that differ only in this have the same witness version, and for version 0, which all addresses made by the package have, they differ by exactly 20 letters q, one being the address of a key and the other of a script: so fewer are always noticed. For later versions one letter too many can be accepted, and the payment goes to another script (a concrete address is given). An address with the newer checksum of BIP-350 (Bech32m), in small letters, in capitals or in both, is never taken for an address: it is refused with ValueError (unless the same text is by chance a Base58Check text with the version byte of an address).", "quantifier": "every prefix, every text, every number of inserted or missing letters; every Bech32m text", "why_tests_cant": "Texts and numbers of letters are unbounded; tests have a few invalid addresses.", "anchors": ["bit/base32.py: bech32_polymod", "bit/base32.py: bech32_decode", "bit/base32.py: decode", "bit/format.py: get_version", "bit/transaction.py: address_to_scriptpubkey"]}
{"id": "C107", "title": "A search for a prefix that no address has never ends", "statement": "A main network address is a Base58 text of a number below 2^192, so a prefix that writes a larger number is the beginning of none; every prefix of at least 35 Base58 characters (the leading 1 counted) whose second character is not 1 is such a one. The search for it is not refused but begun with at least one worker, and it never ends: whatever keys are drawn and however the processes are interleaved, nothing is ever reported and no worker returns.", "quantifier": "every prefix, number of workers, schedule and stream of keys", "why_tests_cant": "That something never happens, in any schedule and with any keys, cannot be seen by running it for a while.", "anchors": ["bit/keygen.py: generate_matching_address", "bit/keygen.py: generate_key_address_pairs", "bit/base58.py: b58encode_check"]}
