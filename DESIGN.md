# Formal model of ofek/bit in Lean 4: design

## Layout

* `lean/Verif/Model/*.lean`: the model, function by function. Every definition cites the file and lines of `/repo` it
  models and names its simplifications.
* `lean/Verif/Spec/*.lean`: small specifications that do not use the model: Base58 value, bit strings, text, scripts and
  a push parser, a script interpreter, the curve equation, the Bitcoin wire format, BIP-141 sizes, SIGHASH_ALL and
  BIP-143 digests, Bech32 by polynomial division over GF(32), decimal numbers, cache histories, what block explorers,
  rate and fee servers answer.
* `lean/Verif/Lemmas/*.lean`: helper lemmas. `Lemmas/Bech32Table.lean` is generated (a table of syndromes, checked by
  the kernel when it is compiled).
* `lean/Verif/Concrete/*.lean`: SHA-256 and RIPEMD-160 as Lean functions, a small signature scheme and simulated
  servers. They serve the worked cases beside the theorems and show that the hypotheses can be met.
* `lean/Verif/Props/*.lean`: the property theorems (named in `MANIFEST.json`) and beside each one a concrete case that
  meets its hypotheses.
* `seeded/LOG.jsonl`: wrong programs that were tried against the theorems, and what was tightened.

## Modelling conventions

* `bytes` is `List UInt8`, `str` is `List Char`, `int` is `Nat` or `Int` (`Int` wherever Python may see a negative number
  and behave differently). Amounts, times and heights are `Int`.
* A Python exception is a value: functions return `Py α = Except PyErr α`.
* Loops are structural or well-founded recursion. A loop that may run for ever takes a bound on its rounds and returns
  `Option`: `none` means "still running". Theorems hold for every bound, and termination is proved where it is claimed.
* Mutation is state passing: a method returns the object afterwards and its result, also when it raises.
* Randomness (`randint`, `shuffle`), time, network answers, failures and process schedules are parameters, universally
  quantified in the theorems.
* The web is a function from requests to replies (status, text, JSON value) or exceptions. One call of the library
  repeats a request only if a server leads it in a circle (a page that ends like an earlier one, a link back). With that
  exception, where the modelled code runs for ever, this is as general as servers that change; where a wallet asks for two addresses, each
  query has a web of its own.
* SHA-256, RIPEMD-160 and the secp256k1 operations of `coincurve` (public key derivation, signing, verification, DER
  check) are the fields of a structure `Crypto`. Theorems quantify over it. Laws that are needed are explicit hypotheses
  (see "Hypotheses on the outside") and are shown to be met by a concrete instance.
* `PrivateKey` and `PrivateKeyTestnet`, and `MultiSig` and `MultiSigTestnet`, are one definition with the network as a
  parameter. A textual comparison of the classes in `/repo/bit/wallet.py` shows that they differ only in the network
  passed on, the class names and texts of messages.

## Trusted base

* The kernel of Lean 4.33, and the axioms `propext`, `Classical.choice`, `Quot.sound` (table at the end). No axiom is
  added, there is no `sorry`, and neither `native_decide` nor `bv_decide` is used. Closed computations use
  `decide +kernel`, which is checked by the kernel.
* The definitions in `Spec/` say what the English statements mean.
* The reading of the Python code in `Model/`: no translation tool is used and the code was not run.
* Python semantics of what the code uses: arbitrary precision integers, slicing, `to_bytes`, `bytes.fromhex`, dict look-up
  and order, `sorted` (stable), `str.lower`/`upper` on ASCII, UTF-8 encoding; the `decimal` module as in `_pydecimal`
  (`Model/Decimal`: precision, half-even rounding, quantize, normalize, text) without NaN, infinities and exponent limits.

## What is modelled

| file of /repo | modelled in | left out |
|---|---|---|
| `bit/base58.py` | `Model/Base58` | |
| `bit/base32.py` | `Model/Bech32` | |
| `bit/crypto.py` | `Model/Crypto` | the inside of `hashlib` (concrete versions in `Concrete/Hashes`) and `coincurve` |
| `bit/curve.py` | `Model/Curve` | |
| `bit/format.py` | `Model/Format` | |
| `bit/utils.py` | `Model/Utils`, `Model/Tx` | |
| `bit/keygen.py` | `Model/Keygen`: worker processes as a transition system with arbitrary interleaving | operating system effects on processes (kills, failing pipes) |
| `bit/transaction.py` | `Model/Tx`, `Model/CoinSelect`, `Model/Build`, `Model/Sign` | the recursion limit of Python (the match search recurses once per unspent), `__repr__` |
| `bit/wallet.py` | `Model/Keys`, `Model/KeyApi`, `Model/Wallet`, `Model/Sharing` (objects), `Model/JsonText` (the `json` module as text), `Model/Send`, `Model/Sign`, `Model/KeyUse` (histories of calls of one object) | DER and PEM key formats |
| `bit/network/meta.py` | `Model/Unspent` (sizes in quarters of a byte instead of floats) | `__repr__` |
| `bit/network/fees.py` | `Model/Fees`, `Model/Quotes` | setting the cache time (a parameter) |
| `bit/network/rates.py` | `Model/Rates`, `Model/Quotes`, `Model/Decimal` | setting the cache time (a parameter), request headers |
| `bit/network/services.py` | `Model/Services` (order of services, failover), `Model/Web` (requests and replies), `Model/Json`, `Model/Digits` (the precision over a history), `Model/Node` (the URL and the calls of nodes) | time-outs and headers; the methods that Bitcore inherits from Insight and that are in no list; JSON values of a wrong type are a `TypeError` at the place where they are used |
| `bit/cli.py`, `bit/exceptions.py` | | the command line front end (no logic) |

Not modelled: logging, HTTP and the JSON of replies as text (the JSON of `prepare_transaction` is modelled as text), `requests`, the operating system, concurrent use of one key object beyond `get_unspents` and `get_transactions` (C103; the lists of services are modelled with threads in C104, the shared caches of fees and rates are modelled with threads in C84).

## Hypotheses on the outside

* `HashLengths`: SHA-256 gives 32 bytes and RIPEMD-160 20 bytes.
* `ZeroPayloadOk`: the all-zero payload has a checksum with a nonzero byte (Base58Check of nothing but zeros is not
  invertible in this library, see C01).
* `KeyLaws C k`: the public key has 33 or 65 bytes according to the compression, signatures have at most 72 bytes and
  verify under the key's own public key.
* `Standard C` (C93): the functions are SHA-256, RIPEMD-160 and ECDSA on secp256k1. Under it `HashLengths`, `ZeroPayloadOk`,
  `KeyLaws`, `SignerLaws` and the bound of C76 on signatures are theorems for every valid key, and it can be met
  (`C93_exists`).
* `SignerLaws C s k`: the key belongs to the contract, its signatures are DER and at most 72 bytes long, and verify under
  the key itself.
* `NoMixup C s ks us t`: for the messages of the inputs of the contract in this one transaction, no signature of one of
  the keys `ks` verifies under a different key of the contract, and no part of the contract's script is itself a valid
  signature for that message. The code matches signatures to keys by trying them all,
  so it needs this. It is asked for these messages only: over all messages ECDSA does not have it (`C93_twin`). Under
  `Standard`, `C93_other_key` says which equation between the numbers makes a signature verify under another key.
* `ContractLaws C s`: the redeem script was made from the keys, the keys are distinct points of the curve (C80 shows what
  happens otherwise), and only texts beginning with 0x30 are DER. Under `Standard` it holds for all
  valid keys with different secrets within the limit of 520 bytes (`C93_contract`).
* C63 and what builds on it: transaction ids of coins are 64 lower-case hex digits (`TxidOk`), outpoints are distinct, and
  the declared type of a coin fits its script (`TypeFits`).
* C62, C68, C70-C73: the servers answer as their documentation says (`Spec/Web`, `Spec/Submit`, `Spec/Quotes`), with an
  explicit account of failures; `Concrete/Server` simulates servers that meet these hypotheses.
* C51, C77, C79: `ReadsQuarters`: Python reads and prints floats that are multiples of 1/4 (sizes below 2^48 bytes) exactly. The
  limits of Python on recursion depth and on the digits of an int, and lone surrogates in `\\uXXXX` escapes, are left out.
* C71: amounts of a node are floats that denote a multiple of one satoshi when printed.
* C76: signatures have at most 71 bytes (low-S), public keys their sizes, counts are below 253.

## Properties

(see `properties.jsonl` for the statements, `MANIFEST.json` for the theorems)

| id | model | proof |
|----|-------|-------|
| C01-C03 | `Model/Base58` | numeric value of digit lists; uniqueness of digits; leading zero count |
| C04-C05 | `Model/Format` (WIF) | C03 plus length of Base58 text from magnitude bounds |
| C06 | `Model/Bech32` | linearity of the polymod step under xor; refinement of polynomial division over GF(32) |
| C07-C08 | `Model/Bech32` | C06 and C11 |
| C09 | `Model/Bech32` | the syndrome of an error is nonzero: linearity plus kernel computation over the complete table of syndromes |
| C10 | `Model/Bech32` | case folding lemmas |
| C11 | `Model/Bech32` convertbits | loop invariant on accumulator and bits |
| C12-C14 | `Model/Utils` | arithmetic, independent script parser in `Spec` |
| C15-C16 | `Model/Curve`, `Model/Format` | primality certificate of the field size, Euler criterion |
| C17-C20 | `Model/Format`, `Model/Tx` | C03, C07 and script templates in `Spec` |
| C21-C23, C75 | `Model/Format`, `Model/Keys` | script parser; uniqueness of sorting |
| C24-C27 | `Model/Tx` | parser/printer round trip by induction on lists; wire format in `Spec` |
| C28-C29 | `Model/Tx` | arithmetic; byte size of the wire format |
| C30-C36 | `Model/CoinSelect` | induction over the search tree with an oracle for coin flips; induction over the draw loop |
| C37-C41 | `Model/Build` | over the selection theorems |
| C42-C49 | `Model/Sign` | refinement against the digest specifications; canonical form of partially signed inputs, by induction on the list of signers |
| C50 | `Model/Unspent` | invariant by induction over call histories |
| C51-C53 | `Model/Wallet`, `Model/Keys` | relational; C51 over the text of C77 |
| C54 | `Model/Keygen` | transition system over worker interleavings, invariant |
| C55-C56, C73 | `Model/Fees`, `Model/Rates`, `Model/Quotes` | state machines, invariant by induction over histories |
| C57-C58, C72 | `Model/Decimal`, `Model/Rates` | decimal arithmetic with precision and rounding against rational numbers |
| C59-C61 | `Model/Services` | induction over service lists and histories of connections |
| C62 | `Model/Web` | induction over pages of lists of any length |
| C63 | `Model/Wallet` | composition of C30-C49 |
| C64 | `Model/Wallet`, `Model/Sign` | refinement: the interpreter of `Spec/Interp` runs on what the code produces |
| C65-C67 | `Model/Send` | composition with fetching and broadcasting |
| C68, C70, C71 | `Model/Web` | the reports of the network layer against the chain as the servers tell it |
| C69 | `Model/Web`, `Model/Send` | two worlds that agree on the permitted requests give the same result |
| C74 | `Model/Sign`, `Model/Keys` | equivalence with script equality |
| C76 | `Model/Wallet` | byte size of the signed transaction against the estimate |
| C77-C78 | `Model/JsonText`, `Model/Wallet` | parser/printer round trip by mutual induction on JSON values; the parser's steps are bounded by the length of the text |
| C79 | `Model/JsonText`, `Model/Wallet`; the grammar of RFC 8259 is `Spec/JsonGrammar` | refinement: every derivation of the grammar is followed by the scanner (mutual induction on derivations); the printer stays in the grammar; conversely each step of the scanner that succeeds builds a derivation (induction on the fuel), so only the grammar with Python's additions (`Spec/JsonPython`) is read |
| C80 | `Model/Sign`, `Model/Utils` (reading the signatures out of a field) | decision logic: the first item of the field is found as a signature, so every key is tried, and the invalid one raises |
| C81 | `Model/Wallet` (sizes), `Model/Build`, `Model/Sign` | the completed input is given by an equation (as for C48), its size is compared with the size booked by `get_unspents`, then the fee argument of C76 |
| C82 | `Model/JsonText` (`json.loads`), `Model/Wallet` | the scanner, by induction on the fuel, gives the same value and the remainder with the appended text when a text is appended, unless a number could go on; an object ends by itself; the hexadecimal reading fails because of the brace |
| C83 | `Spec/Interp`, `Spec/Tamper`, `Model/Sign`, `Model/Tx` | both message formats are uniquely readable (each field cancels from the left), so equal messages give equal transactions; the interpreter, run backwards from acceptance, must have checked a signature of the input against the message of the other transaction |
| C84 | `Model/Threads` (the calls of C55 and C56 taken apart into single accesses, any schedule); what an observer sees is `Spec/Threads` | invariant over all schedules: every stored value has a witness call that was answered and has not returned before a time that the stored time stamp does not exceed; rank function for termination; a given schedule for the negative part |
| C85 | `Model/Sharing` (unspents, lists and keys as numbered objects; coin selection, `sanitize_tx_data`, `get_unspents`, `create_transaction` on objects); `Spec/Sharing` | refinement of the objects to the values of `Model/Wallet`; frame conditions by cases; history by induction; witnesses by evaluation |
| C86 | `Model/Wallet`, `Model/CoinSelect` | every function on the way to a transaction is shown to raise only the listed exceptions (`Lemmas/Errors`); the failure of selection by the exact condition of C35 |
| C87 | `Model/Wallet`, `Spec/Ledger` | the chain as a set of unspent outputs, with validity and confirmation specified apart from the model; C63 (what is created) and C46 (accepted inputs) give validity, a split of the set by the spent outpoints gives the balances, induction over histories the books |
| C88 | `Model/Build`, `Model/CoinSelect`, `Model/Wallet`, `Model/Sign` | each stage is shown to have no failing branch under its precondition (selection by C86's cost bound, construction, encoding, signing by C45/C48), and each establishes the precondition of the next; with C86 an equivalence; with C87 validity on the chain |
| C89 | `Model/Sign`, `Model/Wallet` | the dictionary of inputs built from either list gives entries that agree in what `sign_tx` reads; so the prepared inputs are equal; for co-signers, induction over them with the state of C48 |
| C90 | `Model/Wallet`, `Model/Sign`, `Spec/Ledger` | lists fetched by honest services tell of the same coins, so C89 reduces co-signing to one list; completeness by C48/C63; validity, movements and history as for C87, over the list of the contract's scripts |
| C91 | `Model/Web`, `Model/Wallet`, `Model/Send`, `Spec/Web`, `Spec/Ledger` | the accounts in `Spec/Web` are tied to the ledger (`OnChain`); C68 gives lists that tell of the coins of the ledger, which are the hypotheses of C87, C88 and C90; contracts in `Props/ContractLive` |
| C92 | `Model/Sign`, `Model/Wallet`, `Spec/Ledger` | what the keys make is a fold of the single-key effect of C45; signers of different inputs commute (C46), so the fold does not depend on the order (induction on the permutation) and each owner may be taken to sign last; validity then as in C90 |
| C93 | `Model/KeyApi`, `Spec/Secp256k1`, `Concrete/Hashes` | the group is Mathlib's group of the curve; both primes are proved with certificates (Pocklington, Lucas); the multiple of the base point by the group order is computed with numbers, each step proved to be the group law, so the base point has that prime order; correctness of ECDSA by algebra in the field of the group order; a secret number that works is always 1 or 2; the encodings are injective; a pair of numbers that verifies under two keys forces two points with the same abscissa modulo the order, so equal or opposite points |
| C94 | `Model/Digits`, `Spec/Digits` | invariant over any list of calls: the lists of services, the precision and the cached rates; a product of at least 10^P, rounded to P digits, is a multiple of ten |
| C95 | `Model/Wallet`, `Spec/Replace` | both calls are refined to the payments and the change that were asked for (`Built`); with all coins used these are determined by the arguments, so the two differ in the change only; the difference of the fees is linear in the rate (C76, C81) |
| C96 | `Model/Wallet`, `Spec/Ledger` | from C87 and C90 (which give the exact change when all coins are used) with no payments |
| C97 | `Model/Program` | invariants over the history (the caches hold what was quoted, when it was quoted; the units of bitcoin never expire; the lists and the digits), a refinement of the call with all it asks to the wallet of `Model/Wallet` with amounts in satoshi, then C87 and C91 |
| C98 | `Model/Node` | the first separator of the text decides where a part ends; what is posted is in the grammar of JSON with exactly one value (C79), so a server that reads JSON-RPC gives its reply to this call; then C71 for the replies of the node, C87 and C88 for the chain |
| C99 | `Model/Sign` | what the reader of scripts returns is part of the script and DER, by induction on the reads; the matching loop keeps exactly what verifies (fold invariants); then the transaction as in C46-C48 and the interpreter as in C64 |
| C100 | `Model/KeyUse`, `Model/Program`; the device in `Spec/Device` | two executions side by side: each method with the device and other bytes for the secret gives the same result and the same object up to the secret; then induction on the history |
| C101 | `Model/Wallet`, `Model/Send`; what is asked in `Spec/Asked`, the device in `Spec/Device` | two executions side by side: the unsigned transaction does not depend on signatures; in the loop of `sign_tx` each step uses the signature of the digest of its own input only, which is the one of `Spec/Sighash` |
| C102 | `Model/Tx`, `Model/Sign`; transactions in `Spec/Tx` | every reader either reads its whole field, raises, or uses up the stream (induction over the lists); an invariant of objects whose lock time is too short is kept by `sign_tx`; reading the result back gives a lock time that is too short again |
| C103 | `Model/KeyThreads`: the steps of `get_unspents` and `get_transactions` on one object | invariant of the list, of the sums under way and of what was seen, by induction over the schedule; explicit schedules for the faults |
| C104 | `Model/NodeThreads`: the assignments of `connect_to_node` and the loops of questions and broadcasts, step by step | invariant of the lists, the threads and what was seen, by induction over the schedule; explicit schedules for the faults |
| C105 | `Model/Bech32`, `Model/Format`, `Model/Build`, `Model/Wallet`, `Model/Send` | C09 carried through network detection, script construction, `sanitize_tx_data`, `create_transaction`, `send` and `prepare_transaction`; the Base58 reading is excluded by bounds on the leading byte |
| C106 | `Model/Bech32`, `Model/Format` | the state of the checksum before a final `p` is 0 and stays 0; lengths of regrouped data; the remainder of Bech32m differs |
| C107 | `Model/Keygen` | invariant of the search over all schedules; the number an address writes is below `2 ^ 192` |

## Where the code falls short of what one would expect

All of these are theorems with witnesses (see the notes in `MANIFEST.json`):

* All-zero byte strings do not survive Base58 (C01). Keys whose x is off the curve are not refused (C16).
* Some valid addresses are refused because their text is also valid in the other format (C17, C19).
* Payloads of a wrong length are accepted as addresses (C20). Malformed transactions are accepted (C26): cut inside the last script, inside a large number of outputs, or (as text, with witnesses) in the middle of any byte.
* Message chunks of 76 to 80 bytes give a malformed script (C39).
* Signing a segwit contract input twice with one key breaks the transaction (C49).
* Transactions with messages cannot be prepared for offline signing (C51).
* A contract with an invalid public key is accepted and can be paid, but not co-signed (C80).
* A 1-of-n contract with coins of both kinds can pay less than the fee rate asked for (C81).
* The list of unspents and the balance can get out of step (C52).
* A vanity search can hang, and the WIF it reports is for another address (C54).
* With `combine=False` a payment repeated with a higher fee may select other coins and pay twice (C95); with mixed coins one satoshi
  per byte more may not be enough for nodes (C95).
* If the coins are worth exactly the fee and nothing is paid, a transaction without outputs is returned; change below the dust limit
  is paid out (C96).
* The decimal precision is lowered to 9 by a node query, after which amounts are rounded in the whole thread (C57, C58, C71, C94).
* The type byte of signatures found in a text to co-sign is not checked (C99); an item of a witness that only looks like a
  signature makes co-signing give a broken text (C99).
* Name and password of a node are put into the URL unescaped; with a slash, question mark or hash the request goes elsewhere (C98).
* Failures of some servers are taken for empty lists (C62); a page is read without a look at its status (C62).
* `ConnectionError` from `send` does not mean that nothing was sent (C65).
* Test network transactions are pushed to Bitcore as coin `BCH` (C69).
* Fees fall short of the requested rate in three situations (C76).
* Two threads that refresh a cache at the same time can leave an old value with a new time stamp (C84).
* Threads that refresh one key at the same time can leave coins listed and counted twice, and a balance that does not belong
  to the list (C103).
* Two threads that connect to different nodes at the same time can leave some questions with one node and the others with the
  other one, for good (C104).
- An address of witness version 1 or later that ends in `p` stays valid with a letter `q` inserted before it, and the
  payment goes to another script (C106); addresses of Bech32m are refused.
- A search for a vanity prefix that no address can have is not refused and never ends (C107).
* Replaceability is written into the unspent objects, `create_transaction` shortens the list it is given, and the result of
  `get_unspents` is an alias of the key's own list (C85).

Seen while reading and not modelled: the match search recurses once per unspent and meets Python's recursion limit at
about a thousand;
`sign_transaction` swallows every exception of its first attempt; the króna is shown with two decimal places although
ISO 4217 says none.

## Axioms of the theorems

Printed by Lean (`collectAxioms`) for every theorem of `MANIFEST.json`. No theorem uses another axiom.

| axioms | theorems |
|---|---|
| none | C67_failure |
| propext | C03_b58check_refuses, C100_contract, C23_refusals, C24_no_input_misread, C39_bytes_need_flag, C47_cosigner_objects, C50_equal, C59_http_error_aborts, C59_ignored, C59_rates_ignored |
| Quot.sound, propext | C05_checksum_check_iff, C05_wif_accepts_iff, C103_alone_transactions, C103_stale, C103_twice, C103_twice_transactions, C104_alone, C104_between, C104_torn, C10_non_ascii_refused, C10_upper_case_same, C12_hex_odd, C15_length, C20_short_payload_accepted, C22_set_sorted, C23_upper_case_refused, C26_newline_refused, C34_search_bounded, C38_refused, C38_same_network, C39_bytes_chunks, C41_replace_by_fee, C53_equality, C53_from_bytes, C53_out_of_range, C54_empty_prefix, C54_not_stuck, C54_reported, C54_wraparound_hang, C59_connection_error, C59_first_answer, C60_broadcast, C67_transactions, C84_crossing, C84_fee_alone, C84_fee_ends, C84_fee_errors, C84_fees, C84_rate_ends, C84_rate_errors, C85_frame_prepare, C95_once |
| Classical.choice, Quot.sound, propext | all others (398) |
