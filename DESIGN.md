# Formal model of xconnio/wampproto-go in Lean 4

The code in `/repo` was read as text and never built or run. Everything below is about the Lean model;
each model definition cites the file and lines it models.

## Layout

* `lean/Verif/Model/*.lean` – the model, one file per Go file or package.
* `lean/Verif/Spec/*.lean`  – small specifications that do not mention the model's helpers.
* `lean/Verif/Lemmas/*.lean` – helper lemmas and invariants.
* `lean/Verif/Props/*.lean` – the property theorems (named `Cnn_...`), with non-vacuity examples.
* `lean/Verif/Conformance/*.lean` – the assertions of all of `/repo`'s own test files evaluated on the model (a check of the model, not part of any proof).
* `properties.jsonl` (generated by `tools/props.py`), `MANIFEST.json`, `seeded/LOG.jsonl`.

## Modelling decisions

* Go `string` = list of bytes (`Str`). `[]byte` = list of bytes. `uint64` identifiers = `Nat`
  (the code only compares, stores and increments identifiers; increments are bounded by 2^53, so no 64-bit
  overflow occurs). Fixed-width arithmetic is modelled where it matters (rawsocket, conversions).
* Go `any` = `Val`, with one constructor per dynamic type the code or the decoders distinguish,
  including typed nil slices/maps, `[]string` and the named string type `auth.Method`.
* A Go panic is an explicit outcome (`Res.panic`), an `error` return is `Res.err` (error texts are not modelled
  except the WAMP error URIs, which are observable protocol data, the text in ABORT, the errors about malformed messages, C154, those of brokers and dealers, C155, of sessions, C156, of logins, C157, and about raw sockets, payloads and signatures, C158).
* Go maps whose size or iteration order is never used = functions `K → Option V`; maps that are iterated or
  measured = association lists. Go's random iteration order is an extra argument (an arbitrary order) of the
  operation, over which the theorems quantify. `rand.Intn`, `rand.Read`, `GenerateID` are likewise arguments.
* Pointers that are shared between tables (`*Registration`, `*Subscription`) live in an explicit heap, so that
  aliasing and stale pointers are modelled exactly. In-place surgery on `callees` while ranging over it is
  modelled on the backing array.
* `sync.Mutex`-protected methods are atomic steps; C83 justifies that. `sync.Map` operations in `Session` are
  individually atomic; the session functions are programs over those operations, so both the sequential and
  every interleaved semantics are derived from the same definition.
* External code enters as parameters with the assumptions stated as hypotheses: HMAC-SHA256, PBKDF2 and Ed25519 (all also computed, `Model/Sha256.lean`, `Model/Ed25519.lean`, C168–C171),
  the JSON/CBOR/MsgPack libraries both as a parameter and byte by byte. `go-immutable-radix` is
  a finite map with longest-prefix lookup in the router, and modelled separately as the tree it is (C143); `path.Match` is a parameter of the router and modelled separately from its source (C100).

## Trusted base

* Lean 4.33.0: its kernel (the theorems are re-checked by it) and the correctness of the elaborator for the *statements* that are read.
* Axioms: every theorem named in `MANIFEST.json` depends on a subset of `propext`, `Classical.choice`, `Quot.sound`; the exact set of
  each is listed in `AXIOMS.txt` (written by `tools/axioms.py` with `#print axioms`). There are no other axioms, no `sorry`, no
  `native_decide`/`bv_decide`. Mathlib is not imported.
* The reading of the Go code: the model was written by hand from the source text; nothing checks it against the running program.
  The tests in `/repo` (`*_test.go`) are replayed on it in `Conformance/` and hold there; left out are the texts of the errors of the encoding packages, of the random source and of the default authenticator (which an acceptor never shows). Where a test needs real HMAC or Ed25519 in a whole login, a stand-in is used there; the functions themselves are replayed with the real ones.
* Library behaviour, modelled from documentation or left as parameters:
  * `encoding/hex`, `encoding/base64` (modelled, `Model/Encoding.lean`); `hmac.Equal` is equality;
  * HMAC-SHA256, PBKDF2, Ed25519 (arbitrary functions in `Crypto`; all three are also modelled from FIPS 180-4, RFC 2104, RFC 8018, RFC 8032 and Go's sources as remembered, `Model/Sha256.lean` and `Model/Ed25519.lean`, and checked on published test values, `Conformance/Sha256.lean` and `Conformance/Ed25519.lean`; C26, C42 assume that honest signatures have 64 bytes and verify, public keys
    32 bytes); `pbkdf2.Key` panics for negative key lengths, `ed25519.NewKeyFromSeed` unless the seed has 32 bytes; `nacl/sign.Open`;
  * JSON/CBOR/MsgPack: which Go type a value has after encoding and decoding (`Model/Wire.lean`). `Codec` is a pair of arbitrary
    functions, C14/C18/C42 assume that decoding what was encoded gives the documented value. The bytes are modelled too
    (`Model/Cbor.lean`, `Model/MsgPack.lean`, `Model/Json.lean`, from the format specifications and the libraries' documented defaults)
    and that assumption is proved (C95, C96, C97); the decimal text of floats in JSON is that of `strconv`,
    modelled from its documentation (`Model/Strconv.lean`: nearest float, shortest decimal; C138). Not modelled: `ParseFloat` stops counting exponents
    beyond 10000, which matters only for numbers of more than 10000 digits;
  * float to integer conversion outside the range of the integer type is unspecified (`opaque`);
  * `go-immutable-radix`: the router has a finite map with longest-prefix lookup in its place. The tree itself is modelled in `Model/Radix.lean`
    from the published algorithm of v2.1.0 (its source is not in the sandbox), and C143 proves that it and the finite map give the same answers;
  * `path.Match` as an arbitrary predicate in the dealer and broker
    theorems. `path.Match` itself is modelled from the source of Go 1.22 (`Model/PathMatch.lean`, C100), and what C92 assumes of it is
    proved of that model;
  * `sync.Map`: each operation is atomic; `sync.Mutex`: mutual exclusion (C83 derives atomicity of the methods from it);
  * `rand.Int63n`, `rand.Intn`, `rand.Read`: arbitrary values of the documented range.
* C89–C91 are about `Session`, `Broker` and `Dealer` in the setting they are written for (`Spec/System.lean`): a router, which is not
  part of the library, passes messages on; links are ordered and lossless; session IDs are not used twice. C103 and C104 replace the links by byte streams
  (`Spec/Net.lean`), on which frames are written and read.
* Goroutine interleavings are interleavings of single operations (sequential consistency); the Go memory model for racy programs is not
  modelled. The code has no data races on the modelled state: everything is behind a mutex or a `sync.Map`.

### Modelled

`idgen.go`, `util/util.go` (all conversions), `transports/rawsocket.go`, all of `messages/` (constructors, accessors, `Marshal`, `Parse`, `validator.go`),
`serializers/` (`helpers.go`, `payload.go`, `EncodeCBOR`/`DecodeCBOR`, `Serialize`/`Deserialize` above the codec), `auth/` (authenticators,
method selection, WAMP-CRA with its challenge text and `ISO8601`, CryptoSign), `acceptor.go`, `joiner.go`, `session.go` with `internal/map.go`,
`broker.go`, `dealer.go`, the parts of `types.go` these use.

### Not modelled

Error texts (except WAMP URIs, the text in ABORT, the errors of brokers and dealers, `Model/RouterText.lean`, of sessions, `Model/SessionText.lean`, of logins, `Model/HandshakeText.lean`, about raw sockets, payloads and signatures, `Model/FormatText.lean`, and the errors about malformed messages, `Model/ErrorText.lean`; there `%v` of a value and the codec library's texts are parameters), `String()`/logging, the clock (`CreatedAt`; the time in a
WAMP-CRA challenge is an argument), memory exhaustion, nil `*SessionDetails`/nil messages passed by the caller, `Message` or
`...Fields` implementations from outside the library, mutation of argument maps by the caller after passing them (that
`New...Binary` and `NewCryptoSignAuthenticator` write into the map they are given is modelled in `Model/Heap.lean` only, C102).

## Findings expected while reading (to be proved as counterexamples)

HELLO / AUTHENTICATE of length 2 and the empty list panic in the parser; ABORT with kwargs and nil args does not
survive the wire; `AsUInt64` lacks int16; `GenerateID` may return 0; 16 MiB frame has header length 0;
`SendHandshake` panics on sizes <= 0; empty payloads do not decode; `DecodeCBOR` panics on short lists;
empty auth method proposals select anonymous even if not allowed; cryptosign does not compare the signed message
with the challenge; failed logins can be retried; the joiner panics on WELCOME without authid/authrole and accepts
WELCOME after ABORT; SUBSCRIBED can be replayed; RESULT can be accepted twice concurrently; the dealer keeps
unregistered callees, forwards YIELDs from anybody, panics on UNREGISTER of an unknown id, keeps stale prefix
entries, lets a stale handle unregister somebody else's procedure, drops wildcard entries too early; the broker
drops prefix/wildcard index entries too early and does not exclude the publisher.

## Plan per property

| id | model | method |
|----|-------|--------|
| C01, C03 | `IdGen` | closed form by induction on the number of calls; range of the oracle; witness 0 |
| C02, C83 | generic lock machine | simulation: every interleaving = sequential run in lock order; instantiate with NextID |
| C04–C08 | `RawSocket` on 64-bit ints / bytes | bit-vector arithmetic by `Nat`/`omega`, finite table over byte 2 lifted by a lemma; witnesses |
| C09, C10, C15 | `Util`, floats as dyadic numbers | case analysis; rounding lemma for n ≤ 2^53; witness int16 |
| C11–C14, C16, C17 | `Messages`, `Validator` | independent layout table as spec; case analysis over 24 types; permutation lemma |
| C18–C21 | `Payload` | case analysis; codec contract as hypothesis; witnesses |
| C22 | `Encoding` | induction over byte lists |
| C23–C29 | `Auth` with crypto parameters | unfolding + C22; witnesses |
| C30–C37 | `Acceptor` step machine | invariant relating state to ghost history, induction over message lists; witnesses |
| C38–C41 | `Joiner` step machine | same |
| C42 | composition Joiner/Acceptor through a codec | symbolic execution for arbitrary parameters |
| C43–C50 | `Session` programs over atomic map operations | invariants over histories; counting invariant over interleavings; witnesses |
| C51–C69, C84 | `Dealer` with heap | heap invariant, history/ghost refinement, counting invariants; witnesses |
| C70–C82 | `Broker` with heap | refinement to relation (session, topic) + invariant; witnesses |
| C85 | `Dealer` | invariant over histories: an invocation stays open until a closing answer; witness with a reused request ID |
| C86 | `RawSocket` on a byte stream | induction over the list of messages |
| C87 | `zoneSuffix` in `Auth` | digits by a finite table, the rest by arithmetic; independent parser of the suffix |
| C88 | `Float` | rounding error against every dyadic candidate; witness int16 |
| C89 | `System`: clients' sessions, links, broker and dealer | invariant over reachable states: what a client's tables will be once it has taken all messages under way agrees with the broker's history |
| C90 | `System` | the same for the dealer's pending calls; witness: a progressive call |
| C91 | `System` | the same for registrations; witnesses: shared registrations |
| C92 | `Wildcard`: documented behaviour of `path.Match` as an assumption, met by a concrete function | induction on the pattern; witness `a..c`/`a.b.c` |
| C93 | `Payload` | case analysis on the ID |
| C94 | `RawSocket`, `Validator`, any faithful codec | C86 and C14 composed, induction on the list |
| C95 | `Cbor`: encoder and decoder byte by byte, any map order | mutual induction on values; permutations of map entries |
| C96 | `MsgPack`: encoder and decoder byte by byte, any map order | as C95 |
| C97 | `Json`: encoder and decoder byte by byte | as C95; escapes by induction over the string |
| C98 | `generateCRAChallenge`: the text as a function of the random bytes, the clock and the response | reading the text back with the JSON decoder; freshness along a history of the acceptor |
| C99 | the same | counterexample for the session ID; the rest along a history |
| C100 | `PathMatch`: path.Match function by function | grammar and meaning of patterns as inductive relations; induction on derivations, greedy search by a shortest-match argument; witnesses `*??` and `*[^a]*b` |
| C101 | `Accessors`: every accessor and constructor | case analysis, composed with C14 for the receiver; witness RESULT with serializer 0 |
| C102 | `Heap`: maps as references | induction over the sequence of constructor calls; witnesses with a shared map |
| C103 | `Net`: byte streams between clients and router | simulation: every state over byte streams corresponds to a reachable state over message links, so C89 applies |
| C104 | `Net` | the same simulation, with C90 and C91 |
| C105 | `Log`: Spec/System with a record of delivered messages | invariant: a list of causes, per sender a subsequence of what the router has handled |
| C106 | `Log` | the same invariant as C105 for the other messages |
| C107 | `Log` | invariant: a list of all EVENTs with strictly increasing publication IDs of which each client's are a subsequence |
| C108 | `Net` with a record of what was read | the simulation of C103 extended to the record; C105-C107 applied to the message level |
| C109 | `Log`, `Stays` | invariant on attached sessions, current subscription kept until UNSUBSCRIBE, induction over the run |
| C110 | `Log`, `Stays` | REGISTERED traced to its event; owner of a single registration kept until UNREGISTER or removal |
| C111 | `Log`, `answeredBy` | induction over the run: a request is under way, or its answer is in the inbox |
| C112 | `Log.Polite`, `Log.Idle`, `Log.Served` | pending calls and unanswered calls correspond; every handled CALL is answered or invoked; witness |
| C113 | `Log` | EVENT traced to a current subscription, which was opened by a SUBSCRIBE later than any UNSUBSCRIBE; order of the inbox is the order of the broker's answers |
| C114 | `Log` | as C113 for the owner of a registration; witness |
| C115 | `Sys`, `Accepts`, `Broker.current` | invariant: the table after all messages under way is the set of current subscriptions, in both directions |
| C116 | `Log`, `settles` | invariant: what is settled is neither under way to the router nor pending in the dealer |
| C117 | `Log`, `Stays` | the subscription (C115) or registration is there when the request is sent, and stays until the router takes it |
| C118 | `Net`, `Steps`, `publication` | the simulation of C103, step by step: every step at the byte level is an action at the message level or none |
| C119 | `Site`: an `Acceptor` history per connection and the byte-level router | C30, C31, C34 on every connection; C65 and C80 at the point of the history where the message was made; the simulation of C103 |
| C120 | `Sys` and `Net` | induction over the actions: what the client's table will be when it has worked off what is under way is what the router's history says it holds |
| C121 | `Log` and `Net` | induction over the actions after the CALL; a step is quiet, passes a progressive answer on, or passes the last one on and ends the call |
| C122 | Broker model | simulation between the used broker and a new one, with IDs and addresses shifted |
| C123 | Dealer model | simulation between the used dealer and a new one, with IDs and addresses shifted; witnesses for what remains |
| C124 | Formats as relations between content and bytes, written down from the RFCs | induction on derivations for the reader, on values for the writer; UTF-8 against Lean's own encoder |
| C125 | Formats as relations between content and bytes | as C124; the identifiers by the exact set of Go types AsUInt64 accepts |
| C126 | JSON as a relation between content and bytes, written down from RFC 8259 | induction on derivations for the reader, on values for the writer |
| C127 | the grammars of the formats as inductive predicates, without meaning | induction on the nesting depth of the readers; prefix-freeness by induction on derivations, for JSON by counting brackets |
| C128 | calls of ReceiveMessage with the question recorded; independence of all other answers of the authenticator | case analysis of the two branches, the invariant of C30 to C37 |
| C129 | the system of C104 and C115 | induction over the actions: the dealer keeps the invocation ID of the call, and the owner of the procedure stays the same |
| C130 | the functions of auth/cryptosign.go | hex decoding undoes encoding; C26, C29 and C42 |
| C131 | system of Spec/Delivery with clients that send anything | simulation: every such execution looks to the router and the other clients like one in which the foreign clients use the library, too, and send only what the router does not refuse |
| C132 | acceptors and joiners with an intruder between them (Spec/Intruder) | projection on each acceptor's history, C31, C33 and C98; each session has its own challenge text and each signed text its own SendHello |
| C133 | as C132 | refuted by a run with n sessions for every n; a weaker agreement is proved from C32 |
| C134 | as C132 | refuted for every run; under the assumption that WELCOMEs come from acceptors by C34 and C39 |
| C135 | the formulas of the WAMP specification (Spec/Interop) | unfolding both ends |
| C136 | all outputs of a joiner and an acceptor as functions of their inputs (Spec/Secrets) | two runs with different secrets are related step by step (non-interference) |
| C137 | a foreign client's link is a free byte stream (Spec/NetForeign) | each step of the byte system is matched by moves of the message system with foreign clients (C131), by simulation |
| C138 | `Strconv`: rounding and shortest decimals over integers (Model/Strconv); nearest and shortest specified in Spec/Float | rounding as a division with remainder against all floats; the shortest decimal is found on the grid of p digits, where at most two candidates lie next to the float and every decimal that rounds to it has one of them between |
| C139 | `Step`: handshake, joiner and acceptor on two byte streams (Spec/Connect) | steps of single bytes commute (diamond), so all executions lead to the end of the synchronous one, which is `login` of C42 with a codec that refuses large messages |
| C140 | `frame`, `readFrame` (Spec/Net), MsgPack codec, `Broker.publish` | the header is the size modulo 2^24; a list of n small numbers takes n bytes in the PUBLISH and 2n in the EVENT |
| C141 | `Broker.step`, `Dealer.step` with their order and random arguments; Spec/Chance | the iterations of the loops in RemoveSession commute; wildcard lookup is order-independent if one pattern matches; simulation of the two histories |
| C142 | `Mutex.Step`: mutexes of all components and their generators, calls as lists of lock, unlock and work | invariant: every goroutine holds what it has to release, mutexes are taken in the order component, generator; the steps left are a measure |
| C143 | `Radix.Tree`: nodes with byte prefixes and sorted edges, insertion with split, deletion with merge, longest-prefix search | invariant: edges are sorted and labelled by the first byte below; each operation changes the answer for one key only |
| C144 | the tables of `Broker.State`, `Dealer.State` and `Session.State` | the invariants behind C43, C54, C56 and C70; for the refutations, histories of any length by induction |
| C145 | `Session.Prog`, the operations on the tables as atomic steps | an invariant over `Exec`: a completed or half-completed call is placed where it does its only operation on the shared tables of registrations and subscriptions; its other operations are on its own request's entry and are moved there |
| C146 | `Json`, `Cbor`, `MsgPack` decoders byte by byte, `Codec.deserialize` | case analysis of the first byte of what each decoder accepts, and the number of elements of a message |
| C147 | `Joiner.abortText`, the acceptor, the byte-level codecs | C128 and C28 for the ABORT, C95-C97 for the bytes, then the text is computed; sublists of a join for the general part |
| C148 | Broker model | simulation between the runs with and without the publication, with IDs renamed |
| C149 | Dealer model | simulation between the runs with and without the call, with IDs renamed; a pending invocation whose ID the other run never uses makes no difference |
| C150 | Payload and CBOR models | composition with the round trip of the CBOR codec (C95) |
| C151 | System model of C89 ff. | taking outlines of messages commutes with every step; induction over the moves |
| C152 | Acceptor, joiner and validator models | both parses computed; what is read is compared |
| C153 | Broker, dealer and system models | renaming commutes with every step; induction over the calls and moves |
| C154 | `Model/ErrorText.lean`: the validators, `ValidateMessage`, `Parse`, `ToMessage` and `Deserialize` once more with texts; `Spec/ErrorText.lean`: the layout of each class as a table and the line about one element. The lines for any order are the table's misfits up to order, by induction on the table (`Props/ErrorText.lean`). |
| C155 | `Model/RouterText.lean`: the text of each error next to the conditions of the code; `Spec/RouterText.lean`: for each text the fact about the history. The invariants of C01-C10 and C62 connect states and histories (`Props/RouterText.lean`); an error is returned exactly if there is a text. |
| C156 | `Model/SessionText.lean`: the text of each error next to the conditions of the code; `Spec/SessionText.lean`: for each text the fact about the history. `Props/SessionText.lean` goes from state to history with the invariant of `Props/Session.lean`. |
| C157 | `Model/HandshakeText.lean`: the text of each error next to the conditions of the code; `Spec/HandshakeText.lean`: for each text the fact about the calls so far. `Props/HandshakeText.lean` uses the invariants of the acceptor and of the joiner. |
| C158 | `Model/FormatText.lean`: the text of each error next to the conditions of the code; `Spec/FormatText.lean`: for each text the fact about the input. Case analysis on the input (`Props/FormatText.lean`). |
| C159 | `Model/SyncMap.lean`: the methods over a map from `any` to `any`, with type assertions that can panic; `Spec/SyncMap.lean`: what a map holds after a history. Invariant by induction on the history; `C159_session` by induction on the program of the session's method (`Props/SyncMap.lean`). |
| C160 | `Spec/Refused.lean` defines which calls are refused and what is seen of an object afterwards. The state after a refused call is the same as before up to what no later call reads, by cases; then induction on the later calls (`Props/Refused.lean`). |
| C161 | `Spec/Uris.lean`: the renaming of messages, calls, results and moves. The state with all names replaced simulates the state, step by step; the tables are indexed by the image of the renaming and the heap agrees on allocated objects, an invariant (`Props/Uris.lean`). |
| C162 | `Spec/Requests.lean`: the renumbering of messages, calls, results and moves. The state whose request tables are indexed by the new IDs simulates the state, step by step (`Props/Requests.lean`). |
| C163 | `Spec/People.lean`: the change of session details, messages, calls, results and moves. The state with the details changed simulates the state, step by step (`Props/People.lean`). |
| C164 | The states are equal, by the invariant that ties the tables of the broker to the history (`Props/Again.lean`). |
| C165 | RemoveSession is described in closed form, independent of the order; what the two ways leave behind differs only in the callee lists of registration objects that no table leads to as a live registration, and a simulation shows that no call notices (`Props/Leaving.lean`). |
| C166 | A simulation between the broker with and without the listener: its tables differ only in the listener's own entries and in its place among the subscribers of objects where the steady session is subscribed too (`Props/Listener.lean`). |
| C167 | A simulation: the broker's part is C166; in the dealer a session that never registers or calls anything occurs in no callee list and no pending call, so no step looks at it; induction over the actions (`Props/Onlooker.lean`). |
| C168 | SHA-256, HMAC and PBKDF2 written out; the lengths by induction over blocks, rounds and iterations; base64 of a concatenation (`Props/Sha256.lean`). |
| C169 | The key block of RFC 2104 determines the secret up to zeros at the end; an equal signature is then an equal outer text, an equal inner text, or a collision (`Props/Sha256.lean`). |
| C170 | SHA-512 and Ed25519 written out after RFC 8032; lengths and the range check follow from encoding and decoding of numbers (`Props/Ed25519.lean`). |
| C171 | The key stands for the neutral element; its multiples remain neutral whatever the hash is (induction over the bits of the scalar, in projective coordinates with a power of two as denominator), and 2 is invertible by one computed power (`Props/Ed25519.lean`). |

No property is considered inexpressible. C62 is a liveness claim and is refuted by a safety argument
(no operation of the dealer ever emits such an answer).
