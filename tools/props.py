#!/usr/bin/env python3
"""Single source for properties.jsonl: run it to regenerate the file."""
import json, os
P = []
def p(title, statement, quantifier, why, *anchors):
    P.append(dict(id="C%02d" % (len(P) + 1), title=title, statement=statement,
                  quantifier=quantifier, why_tests_cant=why, anchors=list(anchors)))

# ---- identifiers
p("Session-scope IDs stay in the WAMP range",
  "Every value returned by SessionScopeIDGenerator.NextID on a generator made with the zero value is at least 1 and at most 2^53; the n-th call returns ((n-1) mod 2^53)+1.",
  "every number of calls, without bound, including past the wrap-around at 2^53",
  "the wrap-around point lies 2^53 calls away; no test can execute that many calls",
  "idgen.go:SessionScopeIDGenerator.NextID")
p("Session-scope IDs do not repeat, whatever the schedule",
  "If any number of goroutines call NextID on one generator, then in every interleaving any two of fewer than 2^53 completed calls return different IDs.",
  "every number of goroutines and every interleaving of the individual reads, writes, lock and unlock steps",
  "tests sample a handful of schedules; the race would need one particular interleaving",
  "idgen.go:SessionScopeIDGenerator.NextID")
p("GenerateID yields a valid WAMP global-scope ID",
  "Every value GenerateID can return is a WAMP ID, i.e. lies in [1, 2^53].",
  "every value the random source can produce",
  "the offending value is one out of 2^53 random outcomes",
  "idgen.go:GenerateID", "util/util.go:AsUInt64")

# ---- rawsocket
p("Rawsocket frame header round-trip",
  "For every message kind byte and every length 0 <= n < 2^24, ReceiveMessageHeader(SendMessageHeader(kind, n)) returns the same kind and length; the header is always exactly four bytes, the last three being n in big-endian order.",
  "all 256 kinds and all lengths below 2^24",
  "4 billion combinations; a wrong shift or mask shows only on particular byte patterns",
  "transports/rawsocket.go:SendMessageHeader", "transports/rawsocket.go:ReceiveMessageHeader", "transports/rawsocket.go:IntToBytes", "transports/rawsocket.go:BytesToInt")
p("Every length permitted by the handshake survives the frame header",
  "If a peer announced MaxMessageSize m with an accepted handshake, then every frame length n <= m is transmitted faithfully by the frame header.",
  "all announced sizes and all lengths up to the announced size",
  "only one length (16 MiB exactly) is affected",
  "transports/rawsocket.go:SendHandshake", "transports/rawsocket.go:IntToBytes")
p("Rawsocket handshake round-trip",
  "For every serializer number 0..15 and every max size accepted by SendHandshake, ReceiveHandshake(SendHandshake(h)) returns the same serializer and max size; conversely every 4-byte string accepted by ReceiveHandshake is reproduced by SendHandshake of the result.",
  "all handshakes and all byte strings",
  "the interplay of log2, shift and mask has to hold for each of the 256 second bytes and reject everything else",
  "transports/rawsocket.go:SendHandshake", "transports/rawsocket.go:ReceiveHandshake")
p("Handshake sizes accepted are exactly the powers of two 512..16M",
  "SendHandshake succeeds if and only if MaxMessageSize is a power of two between 2^9 and 2^24; otherwise it returns an error and never crashes.",
  "every machine integer as MaxMessageSize",
  "2^64 possible sizes, and the zero and negative ones go through a float logarithm",
  "transports/rawsocket.go:SendHandshake")
p("ReceiveHandshake classifies every byte string",
  "ReceiveHandshake never crashes; it accepts a byte string exactly when it has length 4, starts with 0x7F and ends with two zero bytes, and then the reported max size is a power of two in 2^9..2^24 and the serializer is in 0..15.",
  "all byte strings of any length",
  "arbitrary remote input",
  "transports/rawsocket.go:ReceiveHandshake")

# ---- value conversion
p("IDs decoded from any integer representation keep their value",
  "AsUInt64 accepts every Go integer type and preserves the value of every non-negative integer; it rejects every non-number.",
  "every dynamic type and every value",
  "a missing type in the switch shows only if a peer happens to encode an ID with that width",
  "util/util.go:AsUInt64", "messages/validator.go:validateID")
p("Integer option values keep their value",
  "AsInt returns (v, true) with the numerically same v for every Go integer value that fits an int, truncates floats that fit toward zero, and returns (0,false) for every integer that does not fit, for NaN, infinities and floats beyond ±2^63, and for every non-number.",
  "every dynamic type and every value",
  "boundaries of ten numeric types",
  "util/util.go:AsInt")

# ---- messages
p("Parser accepts exactly the WAMP message shapes",
  "For each of the 24 message types, parsing a decoded list succeeds exactly when the list has a permitted length and each position holds a value of the kind the WAMP layout prescribes, and then every accessor returns the element at that position; the order in which the validators run does not matter.",
  "all lists of all values, all message types, all iteration orders of the validation table",
  "infinitely many malformed lists; Go randomises the validation order",
  "messages/validator.go:ValidateMessage", "messages/*.go:Parse")
p("Deserialization never crashes on remote input",
  "Whatever list of values a peer's bytes decode to, turning it into a message returns a message or an error and never panics.",
  "all decoded lists",
  "malformed input space is infinite; only two short forms and the empty list crash",
  "serializers/helpers.go:ToMessage", "messages/hello.go:helloValidationSpec", "messages/authenticate.go:authenticateValidationSpec", "messages/validator.go:validateMap")
p("Message type codes dispatch to the right message",
  "ToMessage on a list whose first element is a number k yields a message whose Type() is k when k is one of the 24 WAMP codes used by the library, and an error for every other k and for every non-number.",
  "all numbers and all non-numeric values",
  "2^64 codes",
  "serializers/helpers.go:ToMessage")
p("Message round-trip through a wire format",
  "For every message of every type built with the library's constructors, serializing and deserializing it with a codec that preserves values up to that codec's documented widening (JSON, MsgPack, CBOR) yields a message whose accessors return the same IDs, URIs, options/details, args and kwargs.",
  "all 24 message types with arbitrary contents, all three codecs",
  "unbounded nested payloads; nil versus empty combinations",
  "messages/*.go:Marshal", "messages/*.go:Parse", "serializers/json.go", "serializers/cbor.go", "serializers/msgpack.go")
p("IDs survive JSON",
  "A WAMP ID up to 2^53 in any ID position is the same after being encoded as a JSON number, decoded as float64 and converted back.",
  "all IDs up to 2^53",
  "2^53 values; rounding errors begin one past the bound",
  "util/util.go:AsUInt64", "serializers/json.go:Deserialize", "idgen.go:maxID")
p("Wire layout of a message",
  "Marshal of any message yields a list whose first element is that message's type code, whose length is within the length limits of that message type, with kwargs present only if args are, and parsing that list with the matching type never fails for messages obtained by parsing.",
  "all messages",
  "combinations of absent/empty/non-empty args and kwargs for each type",
  "messages/*.go:Marshal")
p("Constructors never produce nil option or detail maps",
  "Every New... constructor that takes options or details (except HELLO, WELCOME, CHALLENGE, AUTHENTICATE) returns a message whose options/details accessor is non-nil, whatever was passed.",
  "all constructor arguments including nil",
  "simple but per-constructor", "messages/*.go:New*")

# ---- payloads
p("Application payload round-trip",
  "For every serializer id 1..3 and every args/kwargs with at least one of them non-empty, DeserializePayload(SerializePayload(args, kwargs)) yields the same args and kwargs up to that codec's widening, with a missing side read back as empty.",
  "all args and kwargs", "unbounded nested values",
  "serializers/payload.go:SerializePayload", "serializers/payload.go:DeserializePayload", "serializers/payload.go:prepareForEncode", "serializers/payload.go:decode")
p("Empty payload round-trip",
  "A payload with no args and no kwargs also survives SerializePayload then DeserializePayload for every serializer.",
  "all four serializer ids", "needs the behaviour of each decoder on the empty byte string",
  "serializers/payload.go:SerializePayload", "serializers/payload.go:DeserializePayload")
p("Raw-bytes payload",
  "With serializer 0, a single []byte argument and no kwargs is passed through unchanged in both directions and every other non-empty combination is refused.",
  "all byte strings, all args and kwargs", "unbounded input", "serializers/payload.go:SerializePayload", "serializers/payload.go:DeserializePayload")
p("Payload decoding rejects malformed lists and never crashes",
  "Decoding a payload list returns args/kwargs exactly for lists of length at most 2 with an array first and a map second, returns an error for every other list, and never panics; this also holds for DecodeCBOR.",
  "all decoded lists", "infinite malformed inputs", "serializers/payload.go:decode", "serializers/cbor.go:DecodeCBOR")

# ---- encodings and crypto glue
p("Hex and base64 glue is lossless",
  "For every byte string, decoding its hex (base64) encoding gives it back, and hex text decodes only if it has even length and hex digits.",
  "all byte strings", "unbounded", "auth/cryptosign.go", "auth/wampcra.go")
p("WAMP-CRA signatures verify for every secret and challenge",
  "VerifyWAMPCRASignature(SignWAMPCRAChallenge(ch, key), ch, key) is true for every challenge and key, for any HMAC function.",
  "all challenges, keys and MAC functions", "unbounded strings", "auth/wampcra.go:SignWAMPCRAChallenge", "auth/wampcra.go:VerifyWAMPCRASignature")
p("WAMP-CRA verification is sound",
  "VerifyWAMPCRASignature accepts a signature only if its base64 decoding equals the MAC of that very challenge under that very key; malformed base64 is rejected.",
  "all signature strings", "adversarial input", "auth/wampcra.go:VerifyWAMPCRASignature")
p("Client and server derive the same WAMP-CRA key",
  "For every server response (salted or not, any iteration count and key length that survives the codec), the key the client computes from the CHALLENGE extra equals the key the acceptor verifies with.",
  "all salts, secrets, iteration counts, key lengths", "the defaulting of zero iterations/keylen is done on both sides independently",
  "auth/wampcra.go:Authenticate", "auth/wampcra.go:DeriveWAMPCRAKey", "acceptor.go:ReceiveMessage")
p("CryptoSign signatures verify",
  "For every key pair and every 32-byte challenge, VerifyCryptoSignSignature accepts what SignCryptoSignChallenge produced, for any signature scheme in which honest signatures of 64 bytes verify.",
  "all keys, all challenges", "2^256 challenges", "auth/cryptosign.go:SignCryptoSignChallenge", "auth/cryptosign.go:VerifyCryptoSignSignature")
p("CryptoSign verification accepts only valid signed messages of 96 bytes",
  "VerifyCryptoSignSignature returns true only for hex strings of exactly 96 bytes whose first 64 bytes are a valid signature, under the given public key, of the remaining 32.",
  "all strings", "adversarial input", "auth/cryptosign.go:VerifyCryptoSignSignature")
p("Auth method selection",
  "SelectAuthMethod returns the first method in the client's proposal that the server allows, and fails exactly when a non-empty proposal contains none; the selected method is always one the server allows.",
  "all lists of allowed and proposed methods", "unbounded lists; the empty proposal is special", "auth/helpers.go:SelectAuthMethod")
p("CryptoSign client advertises the key it signs with",
  "Whenever NewCryptoSignAuthenticator succeeds, the string pubkey in its auth extra is the hex public key of the private key it signs with; it never crashes.",
  "all key strings and auth extras", "wrong-length keys and pre-set extras", "auth/cryptosign.go:NewCryptoSignAuthenticator")

# ---- acceptor
p("No WELCOME without authenticator approval",
  "In every message history fed to an Acceptor, a WELCOME is returned only if the server authenticator approved a request built from the last HELLO (same realm, authid, method), and the WELCOME carries the realm of that HELLO and the authid and authrole of that approval.",
  "all message sequences, all authenticators, all random outcomes", "adversarial message order across several HELLOs", "acceptor.go:ReceiveMessage", "acceptor.go:sendWelcome")
p("WAMP-CRA login needs the MAC of this acceptor's challenge",
  "In every history, a WELCOME for method wampcra is returned only in response to an AUTHENTICATE whose signature decodes to the MAC, under the approved secret, of the challenge this acceptor sent in its last CHALLENGE.",
  "all histories, all authenticators", "adversarial histories", "acceptor.go:ReceiveMessage", "auth/wampcra.go:VerifyWAMPCRASignature")
p("CryptoSign login needs a signature over this acceptor's challenge",
  "In every history, a WELCOME for method cryptosign is returned only in response to an AUTHENTICATE that carries a valid signature, under the approved public key, of the challenge this acceptor sent.",
  "all histories, all authenticators, all signature schemes", "a replayed signature is needed to see the difference", "acceptor.go:ReceiveMessage", "auth/cryptosign.go:VerifyCryptoSignSignature")
p("Nothing is accepted after WELCOME",
  "Once an Acceptor returned WELCOME, every later message is refused with an error, its session details never change, and no second WELCOME is ever sent.",
  "all histories", "all continuations of all histories", "acceptor.go:ReceiveMessage")
p("Acceptor session details agree with the WELCOME",
  "Acceptor.SessionDetails succeeds exactly when a WELCOME was returned, and then reports the session ID, realm, authid, authrole and auth method the WELCOME carried.",
  "all histories", "all histories", "acceptor.go:SessionDetails", "acceptor.go:sendWelcome", "types.go:NewSessionDetails")
p("AUTHENTICATE is accepted only after a CHALLENGE",
  "In every history an AUTHENTICATE is answered with anything but an error only if the previous non-error answer that is not an ABORT was a CHALLENGE, and HELLO is refused while a challenge is outstanding.",
  "all histories", "all orders", "acceptor.go:ReceiveMessage")
p("A failed login is final",
  "After the Acceptor returned ABORT, no later message on the same Acceptor can obtain a WELCOME.",
  "all continuations", "needs a second attempt on the same connection", "acceptor.go:ReceiveMessage")
p("Acceptor never crashes",
  "For every authenticator that returns a non-nil response or an error, no sequence of HELLO, AUTHENTICATE or other messages makes the Acceptor panic.",
  "all message sequences and all authenticators", "unchecked type assertions on cached state", "acceptor.go:ReceiveMessage")

# ---- joiner
p("Joiner accepts WELCOME and CHALLENGE only when due",
  "A Joiner accepts WELCOME only after SendHello and before joining, CHALLENGE only directly after SendHello; after joining every WELCOME and CHALLENGE is refused until SendHello is called again.",
  "all histories", "all orders", "joiner.go:ReceiveMessage")
p("Joiner session details come from an accepted WELCOME",
  "Joiner.SessionDetails succeeds exactly when some WELCOME was accepted, and reports the session ID, authid and authrole of the last accepted WELCOME together with the joiner's own realm.",
  "all histories", "all orders", "joiner.go:SessionDetails", "joiner.go:ReceiveMessage")
p("Joiner never crashes on remote messages",
  "No message received from the router makes Joiner.ReceiveMessage panic.",
  "all messages in all states", "arbitrary remote details", "joiner.go:ReceiveMessage")
p("ABORT ends the join attempt",
  "After an ABORT, a Joiner refuses WELCOME until SendHello is called again.",
  "all continuations", "needs a misbehaving router", "joiner.go:ReceiveMessage")
p("Honest handshake completes and both ends agree",
  "For each of the four auth methods, if the server's authenticator approves the client's credentials, then exchanging the bytes between a Joiner and an Acceptor ends with both holding session details with equal session ID, realm, authid, authrole and auth method.",
  "all realms, authids, secrets, salts, keys, tickets, roles, random outcomes and codecs", "the whole exchange crosses four components", "joiner.go", "acceptor.go", "auth/*.go")

# ---- client session
p("Responses are accepted exactly when a request is outstanding",
  "Session.ReceiveMessage accepts RESULT, REGISTERED, PUBLISHED, UNREGISTERED, SUBSCRIBED, UNSUBSCRIBED and ERROR for a request id exactly when that request was sent and has not been settled; EVENT and INVOCATION exactly when the subscription or registration is confirmed.",
  "all histories of sends and receives", "unbounded histories", "session.go:SendMessage", "session.go:ReceiveMessage")
p("At most one final answer per CALL",
  "In any sequential history, the number of final RESULT and CALL-ERROR messages a Session accepts for a request id never exceeds the number of CALLs it sent with that id.",
  "all histories", "unbounded histories", "session.go:ReceiveMessage")
p("At most one answer per REGISTER and PUBLISH, under every schedule",
  "In every interleaving of concurrent SendMessage/ReceiveMessage calls, the number of accepted REGISTERED plus REGISTER-ERRORs (PUBLISHED plus PUBLISH-ERRORs) for a request id never exceeds the number of such requests sent.",
  "all numbers of goroutines and all interleavings of the individual map operations", "race windows", "session.go:ReceiveMessage", "internal/map.go")
p("At most one final answer per CALL, under every schedule",
  "The bound of C44 also holds when several goroutines deliver messages to the same Session concurrently.",
  "all interleavings", "race window between Load and Delete", "session.go:ReceiveMessage", "internal/map.go")
p("SUBSCRIBED settles the request",
  "A Session accepts at most one SUBSCRIBED or SUBSCRIBE-ERROR per SUBSCRIBE sent (likewise UNREGISTERED and UNSUBSCRIBED).",
  "all histories", "needs a duplicated router reply", "session.go:ReceiveMessage")
p("Rejected messages leave the Session unchanged",
  "Whenever SendMessage or ReceiveMessage returns an error, every later call behaves as if the failing call had not happened.",
  "all histories, all failing messages, all continuations", "observational equality over all continuations", "session.go:SendMessage", "session.go:ReceiveMessage")
p("Session request kinds do not interfere",
  "Sending or receiving messages of one kind (call, register, publish, subscribe ...) never changes whether a message of an unrelated kind is accepted, even when request ids coincide.",
  "all histories and ids", "nine separate tables", "session.go")
p("Events and invocations reach only confirmed subscriptions and registrations",
  "If a Session accepts an EVENT (INVOCATION) then earlier in its history a SUBSCRIBED (REGISTERED) with that id was accepted after the last accepted UNSUBSCRIBED (UNREGISTERED) for that id.",
  "all histories", "unbounded histories", "session.go:ReceiveMessage")

# ---- dealer
p("Registration identity",
  "In any history with fewer than 2^53 calls and registrations, registration IDs and invocation IDs handed out by one Dealer are pairwise distinct and in [1, 2^53].",
  "all histories below the wrap-around", "unbounded histories", "dealer.go:ReceiveMessage", "idgen.go")
p("Exclusive registrations route to their owner",
  "In every history in which every REGISTER uses the single (or default) policy, a CALL for procedure p is sent to session s exactly when s is the session whose REGISTER for p succeeded last and was neither unregistered nor removed since; a second REGISTER for p is refused with procedure_already_exists exactly while such a session exists.",
  "all histories of add/remove session, register, unregister, call, yield, error; all iteration orders", "unbounded histories with shared mutable registration objects", "dealer.go:ReceiveMessage", "dealer.go:RemoveSession")
p("Invocations go only to attached sessions",
  "Whenever the Dealer turns a CALL into an INVOCATION, the recipient is a session that was added and not removed.",
  "all histories", "stale tree entries, stale callee lists", "dealer.go:ReceiveMessage")
p("Invocations go only to current registrants",
  "Whenever the Dealer turns a CALL into an INVOCATION, the recipient has registered a matching procedure and has not unregistered it since.",
  "all histories including shared registrations", "needs UNREGISTER on a shared registration", "dealer.go:ReceiveMessage")
p("First, last and round-robin policies",
  "For a shared registration whose registrants only join (each once) or are removed, first selects the earliest remaining registrant, last the latest, round-robin serves n consecutive calls by n different registrants, random selects some current registrant.",
  "all histories of joins and departures, all numbers of registrants, all starting points of the rotation", "slice surgery during iteration", "dealer.go:ReceiveMessage", "dealer.go:RemoveSession")
p("Each invocation is answered finally at most once",
  "In every history, at most one final RESULT or ERROR is forwarded per invocation ID, and after it every YIELD or ERROR for that invocation is refused.",
  "all histories", "unbounded histories, progressive results, stale ids", "dealer.go:ReceiveMessage")
p("Final answers never outnumber calls",
  "For every caller c and request id r, the number of final RESULTs and CALL ERRORs the Dealer sends to c with request id r is at most the number of CALLs with id r received from c.",
  "all histories", "counting over unbounded histories", "dealer.go:ReceiveMessage")
p("Results go back to the caller",
  "A RESULT or forwarded ERROR for invocation i is addressed to the session whose CALL produced i and carries that CALL's request id, and its args and kwargs are those of the YIELD or ERROR.",
  "all histories", "interleaved calls", "dealer.go:ReceiveMessage")
p("Progress is only sent to callers that asked for it",
  "A RESULT marked progressive is sent only for a CALL that had receive_progress=true; any YIELD for a CALL without it ends the call.",
  "all histories", "combination of two flags across messages", "dealer.go:ReceiveMessage")
p("Only the invoked callee can answer an invocation",
  "A YIELD or invocation ERROR is forwarded only if it comes from the session the INVOCATION was sent to.",
  "all histories", "needs a hostile third session", "dealer.go:ReceiveMessage")
p("Progressive call invocations stay on one invocation",
  "All CALLs of one progressive call (same caller and request id, progress=true, and the final one) are forwarded with the same invocation ID to the same callee.",
  "all histories", "needs shared registrations or a final chunk", "dealer.go:ReceiveMessage")
p("Callers learn about departed callees",
  "When a session with pending invocations is removed, or unregisters, every affected caller eventually receives an answer.",
  "all histories", "liveness over histories", "dealer.go:RemoveSession")
p("Unregistering affects only the requesting session's own registration",
  "An UNREGISTER from session s never makes a procedure registered by another session uncallable.",
  "all histories", "needs a stale registration handle", "dealer.go:ReceiveMessage")
p("Dealer never crashes",
  "No sequence of API calls with well-formed messages makes the Dealer panic.",
  "all histories", "five different crash sites need specific histories", "dealer.go:ReceiveMessage", "dealer.go:RemoveSession")
p("Caller disclosure",
  "With disclosure off an INVOCATION carries no caller identity; with it on, it carries exactly procedure, caller, caller_authid and caller_authrole of the calling session.",
  "all calls in all states", "flag combinations", "dealer.go:ReceiveMessage", "dealer.go:AutoDiscloseCaller")
p("Call payload reaches the callee unchanged",
  "The args and kwargs (or binary payload) of a CALL are those of the INVOCATION.",
  "all calls in all states", "binary/static combinations", "dealer.go:ReceiveMessage", "messages/invocation.go")
p("Session removal removes its procedures",
  "After RemoveSession(s) a procedure registered only by s is no longer callable, procedures registered by others are unaffected, and a second RemoveSession(s) fails.",
  "all histories, all iteration orders", "map iteration order; shared objects", "dealer.go:RemoveSession", "dealer.go:HasProcedure")
p("Prefix calls reach the longest matching prefix registration",
  "If no exact registration exists for p, a CALL for p goes to the live prefix registration with the longest prefix of p.",
  "all histories", "stale tree entries", "dealer.go:ReceiveMessage")
p("Wildcard registrations stay reachable while someone is registered",
  "While at least one session is registered for a wildcard pattern, calls matching only that pattern are routed to one of its registrants.",
  "all histories", "needs departure of one of several registrants", "dealer.go:RemoveSession")

# ---- broker
p("Events reach exactly the current subscribers of the topic",
  "For every history with fewer than 2^53 operations, if topic t currently has subscribers (sessions that subscribed to t and neither unsubscribed that subscription nor were removed), a PUBLISH on t is delivered to exactly those sessions, each once, under their subscription ID.",
  "all histories, all iteration orders", "unbounded histories over shared mutable objects", "broker.go:ReceivePublish", "broker.go:ReceiveMessage", "broker.go:RemoveSession")
p("Events reach only matching subscribers",
  "Every recipient of an EVENT is an attached session that currently holds the subscription named in the EVENT, and the published topic matches that subscription's pattern under its match policy.",
  "all histories", "prefix and wildcard indices are maintained separately", "broker.go:ReceivePublish")
p("Prefix and wildcard subscribers keep receiving events",
  "A session that subscribed with a prefix or wildcard pattern keeps receiving matching events (not claimed by an exact subscription) until it unsubscribes or leaves.",
  "all histories", "needs a second subscriber of the same pattern to leave", "broker.go:ReceiveMessage", "broker.go:RemoveSession")
p("Every matching subscriber receives the event",
  "A PUBLISH is delivered to all sessions holding any subscription (exact, prefix or wildcard) that matches the topic.",
  "all histories", "overlapping subscriptions", "broker.go:ReceivePublish")
p("The publisher is excluded by default",
  "A publisher that is itself subscribed does not receive its own event unless exclude_me=false.",
  "all histories", "publisher_exclusion is announced in the router roles", "broker.go:ReceivePublish", "acceptor.go:RouterRoles")
p("Acknowledgement",
  "A PUBLISH from an attached session yields a PUBLISHED to the publisher with its request id exactly when acknowledge is the boolean true, and that PUBLISHED carries the same publication ID as the EVENT; publication IDs never repeat below the wrap-around.",
  "all histories", "unbounded histories", "broker.go:ReceivePublish")
p("Broker never crashes",
  "No history of API calls with fewer than 2^53 operations makes the Broker panic.",
  "all histories, all iteration orders", "a nil dereference guarded only by an invariant", "broker.go:RemoveSession", "broker.go:ReceivePublish")
p("Subscription identity",
  "Two subscriptions alive at the same time have different IDs, subscribing again to a topic with current subscribers returns the ID of the existing subscription, and subscribing is idempotent.",
  "all histories below the wrap-around", "unbounded histories", "broker.go:ReceiveMessage")
p("Unsubscribe takes effect and only for the requester",
  "After a successful UNSUBSCRIBE of session s from topic t, s receives no event under that subscription until it subscribes to t again, all other subscribers of t still do, and UNSUBSCRIBE succeeds exactly when s holds that subscription.",
  "all histories", "unbounded histories", "broker.go:ReceiveMessage")
p("Unattached sessions cannot publish or subscribe",
  "SUBSCRIBE, UNSUBSCRIBE and PUBLISH from a session that is not attached return an error and change nothing.",
  "all histories", "all states", "broker.go:ReceiveMessage", "broker.go:ReceivePublish")
p("Publisher disclosure",
  "With disclosure off an EVENT carries empty details; with it on exactly topic, publisher, publisher_authid and publisher_authrole of the publishing session.",
  "all publications", "flag combinations", "broker.go:ReceivePublish")
p("Removing a session removes exactly its subscriptions",
  "After RemoveSession(s), s receives no events, other subscribers of the same exact topics still do, and s can be added again with a clean slate.",
  "all histories, all iteration orders", "map iteration", "broker.go:RemoveSession")
p("HasSubscription tells the truth",
  "HasSubscription(t) holds exactly when some attached session currently subscribes to t.",
  "all histories", "unbounded histories", "broker.go:HasSubscription")
p("Lock-protected components behave atomically",
  "Any concurrent execution of operations each wrapped in Lock/Unlock on the same Dealer, Broker or ID generator has the same results as executing those operations one after another in the order in which they acquired the lock.",
  "all numbers of goroutines, all interleavings, all operation bodies", "schedules", "dealer.go", "broker.go", "idgen.go")
p("HasProcedure tells the truth",
  "HasProcedure(p) holds exactly when some attached session is currently registered for p.",
  "all histories", "unbounded histories", "dealer.go:HasProcedure", "dealer.go:ReceiveMessage")

p("Every INVOCATION can be answered",
  "After the dealer turned a CALL into INVOCATION i, a YIELD for i becomes a RESULT and an ERROR for i becomes an ERROR for the caller, with the request ID of the CALL, until a final answer for i was given.",
  "all histories", "request IDs used again; progressive calls and results", "dealer.go:ReceiveMessage")
p("A stream of frames is read back message by message",
  "Whatever messages (kind, payload below 2^24 bytes) are written one after the other with SendMessageHeader, a reader using ReceiveMessageHeader gets exactly those messages back, and from any prefix of the stream exactly the messages that are complete in it.",
  "all lists of messages, all cuts of the stream", "unbounded streams, arbitrary cuts", "transports/rawsocket.go:SendMessageHeader", "transports/rawsocket.go:ReceiveMessageHeader")
p("ISO8601 timestamps name the right time zone",
  "The zone suffix of ISO8601(t) is well-formed and stands for t's offset from UTC in minutes, for all zones.",
  "all offsets below 100 hours", "negative and fractional-hour offsets", "auth/iso8601.go:ISO8601")
p("AsFloat64 gives the nearest float",
  "AsFloat64 accepts every value of every Go number type and returns the nearest float64 (the same number up to 2^53), and rejects everything else.",
  "all values of all numeric types", "64-bit domain, rounding", "util/util.go:AsFloat64")

p("Clients accept what the broker sends them",
  "When a router hands the messages of its clients to a Broker and sends out what it returns, every EVENT, SUBSCRIBED, UNSUBSCRIBED and PUBLISHED that reaches a client is accepted by that client's Session, whatever is under way in both directions, provided the client never uses a request ID twice for the same kind of request.",
  "all numbers of clients, all interleavings of sending, routing and delivering", "messages crossing on the wire; unbounded schedules", "session.go:ReceiveMessage", "session.go:SendMessage", "broker.go:ReceiveMessage", "broker.go:ReceivePublish")
p("Clients accept the answers to their calls and registrations",
  "When a router hands the messages of its clients to a Dealer and sends out what it returns, every RESULT, ERROR and REGISTERED that reaches a client is accepted by that client's Session, also for progressive calls.",
  "all numbers of clients, all interleavings", "messages crossing on the wire; unbounded schedules", "session.go:ReceiveMessage", "session.go:SendMessage", "dealer.go:ReceiveMessage")
p("Clients accept the invocations they get",
  "In the same setting every INVOCATION and UNREGISTERED that reaches a client is accepted by that client's Session.",
  "all numbers of clients, all interleavings", "UNREGISTER and INVOCATION crossing on the wire; shared registrations", "session.go:ReceiveMessage", "dealer.go:ReceiveMessage")
p("Wildcard patterns match as WAMP specifies",
  "A registration or subscription with the wildcard policy for a pattern such as a..c matches exactly the URIs with the same number of components that agree with the pattern in its non-empty components.",
  "all patterns, all URIs, all histories", "infinitely many patterns", "dealer.go:wildcardMatch", "dealer.go:ReceiveMessage", "broker.go:ReceivePublish")
p("Payload serializer IDs are told apart",
  "SerializePayload and DeserializePayload use JSON for 1, MsgPack for 2 and CBOR for 3, report that codec's failures, and refuse every ID above 3 whatever the payload.",
  "all IDs, all payloads, all codec behaviours", "64-bit IDs, failing codecs", "serializers/payload.go:SerializePayload", "serializers/payload.go:DeserializePayload")
p("Messages over a raw socket arrive in order and unchanged",
  "Messages serialized with JSON, MsgPack or CBOR and framed with SendMessageHeader one after the other, each below 2^24 bytes, are read back with ReceiveMessageHeader and Deserialize in order and unchanged up to the format's number types; from any beginning of the stream exactly the messages that have arrived completely.",
  "all lists of messages, all cuts of the byte stream", "unbounded streams, all segmentations", "transports/rawsocket.go:SendMessageHeader", "transports/rawsocket.go:ReceiveMessageHeader", "serializers/json.go:Serialize", "serializers/cbor.go:Deserialize")
p("The CBOR serializer carries every message with ordinary content",
  "Every message (and payload) whose text is UTF-8, with at most 32 levels of nesting and 131072 elements per list or map, survives CBORSerializer byte for byte, whatever order Go chooses for map entries; the limits on nesting and text are sharp: beyond them Serialize succeeds and Deserialize fails.",
  "all messages, all nested values, all map orders", "infinite value domain, random map order, limits", "serializers/cbor.go:CBORSerializer", "serializers/payload.go:CBOREncodePayload")
p("The MsgPack serializer carries every message",
  "Every message (and payload) with values in the range of their Go types and lengths below 2^32 survives MsgPackSerializer byte for byte: text of any bytes, any nesting, any order Go chooses for map entries; bytes after the message are ignored.",
  "all messages, all nested values, all map orders, all trailing bytes", "infinite value domain, random map order", "serializers/msgpack.go:MsgPackSerializer", "serializers/payload.go:MsgPackEncodePayload")
p("The JSON serializer carries every message with finite numbers and UTF-8 text",
  "Every message (and payload) whose text is UTF-8, whose floats are finite and which is nested below JSON's limit of 10000 levels survives JSONSerializer byte for byte; white space after it is ignored and anything else refused; text that is not UTF-8 arrives with replacement characters, NaN and infinities make Serialize fail.",
  "all messages, all nested values, all strings", "infinite value domain, escapes, limits", "serializers/json.go:JSONSerializer", "serializers/payload.go:JSONEncodePayload")
p("WAMP-CRA challenges are fresh",
  "The challenge text is a JSON object with the nonce (base64 of the random bytes), provider, authid, authrole, method, session and timestamp; texts from different random bytes differ, and an AUTHENTICATE that logged in once does not log in to another session whose random bytes differ.",
  "all authids, roles, providers, random draws, clocks and all histories of two logins", "randomness, the clock, unbounded histories", "acceptor.go:Receive", "auth/wampcra.go:GenerateWAMPCRAChallenge", "auth/iso8601.go:ISO8601")
p("A WAMP-CRA challenge describes the login it belongs to",
  "The authid, authrole, method and session in the challenge a client signs are those of the WELCOME it gets.",
  "all histories of an acceptor", "unbounded histories, all authenticators", "acceptor.go:Receive", "auth/wampcra.go:GenerateWAMPCRAChallenge")

p("Wildcard patterns match as path.Match documents",
  "A subscription or registration with match=wildcard matches the topics and procedures that the terms of its pattern describe (`*` any sequence of characters other than '/', `?` one such character, `[...]` classes with ranges and negation, `\\\\` escapes); an ill-formed pattern matches nothing; matching never crashes.",
  "all patterns, well-formed or not, and all names, UTF-8 or not", "both are unbounded; the search backtracks", "dealer.go:wildcardMatch", "broker.go:ReceivePublish", "dealer.go:ReceiveMessage")
p("What goes into a message comes out of it",
  "The accessors of a message return what was passed to its constructor, PayloadIsBinary is true exactly for the binary constructors; and after serializing and deserializing with JSON, CBOR or MsgPack the receiver's accessors return the same, up to the format's widening.",
  "all 28 constructors, all arguments, all three formats", "unbounded payloads; every combination of nil and empty", "messages/*.go:New*", "messages/message.go:BinaryPayload", "serializers/json.go", "serializers/cbor.go", "serializers/msgpack.go")
p("Building a message or authenticator does not change earlier ones",
  "A message stays what it was when it was built, and an authenticator keeps the public key it advertises, whatever messages and authenticators are built afterwards, also from the same maps.",
  "all sequences of constructor calls and all ways of sharing maps between them", "aliasing over unbounded sequences of calls", "messages/call.go:NewCallBinary", "messages/result.go:NewResultBinary", "messages/invocation.go:NewInvocationBinary", "messages/yield.go:NewYieldBinary", "auth/cryptosign.go:NewCryptoSignAuthenticator")
p("Router and clients over raw sockets: publish and subscribe",
  "When every session uses JSON, CBOR or MsgPack over a raw socket, whichever it likes, and bytes arrive in pieces of any size: every complete frame is read by the other side as the message that was sent (up to the format's widening), and a client's Session accepts every EVENT, SUBSCRIBED, UNSUBSCRIBED and PUBLISHED it reads, if the client never uses a request ID twice for requests of the same kind.",
  "all sequences of actions of any number of clients and the router, all ways the bytes are cut, all serializers per session, all messages within the serializers' limits", "interleavings of clients, router and partial reads are unbounded; tests use one serializer and whole messages", "session.go:ReceiveMessage", "broker.go", "dealer.go", "transports/rawsocket.go", "serializers/json.go", "serializers/cbor.go", "serializers/msgpack.go")
p("Router and clients over raw sockets: calls",
  "In the same setting a client's Session accepts every RESULT, ERROR, REGISTERED, UNREGISTERED and INVOCATION it reads.",
  "all sequences of actions of any number of clients and the router, all ways the bytes are cut, all serializers per session, all messages within the serializers' limits", "interleavings of clients, router and partial reads are unbounded", "session.go:ReceiveMessage", "dealer.go", "transports/rawsocket.go", "serializers/json.go", "serializers/cbor.go", "serializers/msgpack.go")
p("Where EVENTs come from",
  "Between a router and any number of clients, whatever they send and however their messages interleave: every EVENT a client gets comes from one PUBLISH of its own that some client sent, with its args and kwargs, for a topic the client asked for by a SUBSCRIBE it sent; a client's EVENTs from the same publisher come in the order in which the publisher sent its PUBLISHes, at most one per PUBLISH.",
  "all sequences of actions of any number of clients and the router (fewer than 2^53 operations)", "causality and order are about unboundedly long interleavings; tests publish once or twice", "broker.go:ReceivePublish", "broker.go:ReceiveMessage")
p("Where all other messages come from",
  "In the same setting every other message a client gets has one cause of its own: SUBSCRIBED, UNSUBSCRIBED, PUBLISHED, REGISTERED, UNREGISTERED and ERROR for a REGISTER a request of that client with the same ID; an INVOCATION a CALL of some client with the same content for a procedure that the invoked client sent a REGISTER for; a RESULT a YIELD with the same content, for a CALL of that client; an ERROR for a CALL that CALL or an ERROR from a callee with the same URI, args and kwargs. Causes from the same sender come in the order in which it sent them.",
  "all sequences of actions of any number of clients and the router (fewer than 2^53 operations)", "causality and order are about unboundedly long interleavings", "broker.go:ReceiveMessage", "dealer.go:ReceiveMessage")
p("All subscribers agree on the order of EVENTs",
  "There is one order of all EVENTs the router sends, that of their publication IDs, and every client gets its EVENTs in this order and each once; so clients that get the same EVENTs get them in the same order.",
  "all sequences of actions of any number of clients and the router (fewer than 2^53 operations)", "a statement about all clients and all interleavings", "broker.go:ReceivePublish")
p("Where messages come from, over raw sockets",
  "When every session uses JSON, CBOR or MsgPack over a raw socket and bytes arrive in pieces of any size: what a client reads has the causes and the order of C105 to C107, and the args and kwargs of an EVENT, INVOCATION or RESULT are value by value those that the publisher, caller or callee sent, after the widening of that session's serializer and then that of the reader's.",
  "all sequences of actions of any number of clients and the router, all ways the bytes are cut, all serializers per session, all messages within the serializers' limits", "interleavings of clients, router and partial reads are unbounded; contents range over all values", "broker.go", "dealer.go", "transports/rawsocket.go", "serializers/json.go", "serializers/cbor.go", "serializers/msgpack.go")
p("A subscriber misses nothing",
  "From the moment a client has been sent SUBSCRIBED for a topic, and as long as it does not unsubscribe and is not removed: whenever the router takes a PUBLISH to that topic from a client that has not been removed, the subscriber is sent exactly one EVENT for that subscription, with the args and kwargs of the PUBLISH (and its PUBLISHED after it, if it is the publisher and asked for it). Over any further run, the publications taken are all among its EVENTs, in the order in which the router took them. If nobody subscribes to the topic as a pattern, these are all the EVENTs it gets for that subscription.",
  "all sequences of actions of any number of clients and the router (join, send, route, deliver, leave), all map iteration orders and random choices; all topics, args and kwargs", "the messages under way and the interleavings of clients and router are unbounded; a test looks at one schedule", "broker.go: ReceivePublish, ReceiveMessage", "session.go: ReceiveMessage")
p("A registered procedure stays callable",
  "From the moment a client has been sent REGISTERED for a procedure that may not be shared, and as long as it does not unregister and is not removed: whenever the router takes a CALL of that procedure from a client that has not been removed, the client is sent one INVOCATION for that registration with the content of the CALL, and nobody else is sent anything.",
  "all sequences of actions of any number of clients and the router (join, send, route, deliver, leave), all map iteration orders and random choices; all procedures, args, kwargs and payloads", "the messages under way and the interleavings of clients and router are unbounded; a test looks at one schedule", "dealer.go: ReceiveMessage", "session.go: ReceiveMessage")
p("Requests are answered",
  "Every SUBSCRIBE, every PUBLISH that asks for an acknowledgement, and every REGISTER of a client that is not removed has been answered with SUBSCRIBED, PUBLISHED, or REGISTERED or ERROR with its request ID, unless it is still under way to the router. (A request the router takes after it removed the client is not answered.)",
  "all sequences of actions of any number of clients and the router (join, send, route, deliver, leave), all map iteration orders and random choices", "the messages under way and the interleavings of clients and router are unbounded; a test looks at one schedule", "broker.go: ReceiveMessage, ReceivePublish", "dealer.go: ReceiveMessage")
p("Calls finish",
  "If clients answer only INVOCATIONs they got: once nothing is under way and every INVOCATION a client got has been answered finally, every CALL of a client that is not removed has a final answer (a RESULT that is not progressive, or an ERROR) which the client has got.",
  "all sequences of actions of any number of clients and the router (join, send, route, deliver, leave), all map iteration orders and random choices in which clients answer only invocations they got", "the messages under way and the interleavings of clients and router are unbounded; a test looks at one schedule", "dealer.go: ReceiveMessage, RemoveSession")
p("Events come only while subscribed",
  "Whenever an EVENT for a subscription reaches a client, the client was sent SUBSCRIBED with that subscription ID before, and between the two it was sent no answer to an UNSUBSCRIBE of that ID: after UNSUBSCRIBED no EVENT for that subscription follows unless the client subscribes again.",
  "all sequences of actions of any number of clients and the router (join, send, route, deliver, leave), all map iteration orders and random choices", "the messages under way and the interleavings of clients and router are unbounded; a test looks at one schedule", "broker.go: ReceiveMessage, ReceivePublish", "session.go: ReceiveMessage")
p("Invocations come only while registered",
  "Whenever an INVOCATION for a registration reaches a client, the client was sent REGISTERED with that registration ID before, and between the two it was sent no answer to an UNREGISTER of that ID.",
  "all sequences of actions of any number of clients and the router (join, send, route, deliver, leave), all map iteration orders and random choices", "the messages under way and the interleavings of clients and router are unbounded; a test looks at one schedule", "dealer.go: ReceiveMessage", "session.go: ReceiveMessage")
p("Client and router agree on subscriptions",
  "When nothing is under way to a client that has not been removed and has not used a request ID twice, its Session accepts an EVENT for a subscription ID exactly if the broker has the client subscribed under that ID.",
  "all sequences of actions of any number of clients and the router (join, send, route, deliver, leave), all map iteration orders and random choices", "the messages under way and the interleavings of clients and router are unbounded; a test looks at one schedule", "session.go: SendMessage, ReceiveMessage", "broker.go: ReceiveMessage")
p("Requests are settled once",
  "A client that does not use a request ID twice gets answers only to requests it sent, and after the answer that settles a request (a RESULT that is not progressive, ERROR, REGISTERED, UNREGISTERED, PUBLISHED, SUBSCRIBED or UNSUBSCRIBED) it gets no further answer to it.",
  "all sequences of actions of any number of clients and the router (join, send, route, deliver, leave), all map iteration orders and random choices; also clients that answer invocations of others", "the messages under way and the interleavings of clients and router are unbounded; a test looks at one schedule", "dealer.go: ReceiveMessage", "broker.go: ReceiveMessage, ReceivePublish")
p("Unsubscribing and unregistering are answered",
  "An UNSUBSCRIBE of a client that is not removed and does not use a request ID twice is answered by UNSUBSCRIBED once the router has taken it, unless the client sent it while another UNSUBSCRIBE of the same subscription was waiting for its answer (then it may get no answer, not even an ERROR). The first UNREGISTER of a registration by a client that is not removed is answered by UNREGISTERED, whatever the invocation policy.",
  "all sequences of actions of any number of clients and the router (join, send, route, deliver, leave), all map iteration orders and random choices", "the messages under way and the interleavings of clients and router are unbounded; a test looks at one schedule", "broker.go: ReceiveMessage", "dealer.go: ReceiveMessage", "session.go: SendMessage")
p("Nothing is missed and nothing answered twice over byte streams",
  "C109 to C117 hold for what clients read from their byte streams. Once all bytes in both directions have been read, a client that is not removed has read the answer to each of its SUBSCRIBEs, REGISTERs, acknowledged PUBLISHes, UNSUBSCRIBEs and (first) UNREGISTERs; an EVENT for every PUBLISH to a topic it is subscribed to, in order and with its args and kwargs; and an INVOCATION for every CALL of a procedure it alone has registered. Its Session accepts EVENTs of exactly the subscriptions the broker has for it. It reads nothing about a request after the answer that settles it, and EVENTs and INVOCATIONs only while subscribed or registered (\"single\" policy). If all INVOCATIONs read have been answered and no client with a registration was removed, every CALL has its final answer.",
  "all interleavings of any number of clients and the router, each session with its own serializer (JSON, CBOR or MsgPack) over raw socket frames, bytes arriving in pieces of any size, all map iteration orders and random choices", "the interleavings and the ways a byte stream is cut are unbounded; a test looks at one schedule", "broker.go: ReceiveMessage, ReceivePublish", "dealer.go: ReceiveMessage", "session.go: SendMessage, ReceiveMessage", "transports/rawsocket.go: SendMessageHeader, ReceiveMessageHeader")
p("Who published and who called",
  "In a router where sessions join with the session details of the Acceptor of their connection: whoever has sent anything was let in by the server's authenticator. Every EVENT (INVOCATION) a client reads comes from a PUBLISH (CALL) of one session, and if it names a publisher (caller), it names that session, with the auth ID and role that the server's authenticator gave in answer to the login request on that session's connection, and the topic (procedure) of the PUBLISH (CALL). If that login was by WAMP-CRA, the MAC of that connection's challenge under the key for that answer was given on that connection.",
  "all numbers of connections and sessions, all messages during login, all answers of the server's authenticator (which may differ from call to call), all random values, all interleavings of logins with the traffic of sessions that are already there, any serializers and any pieces in which bytes arrive", "who sends what while others log in is unbounded, and a test uses one authenticator", "acceptor.go: Receive, ReceiveMessage, SessionDetails", "broker.go: AddSession, ReceivePublish, AutoDisclosePublisher", "dealer.go: AddSession, ReceiveMessage, AutoDiscloseCaller", "session.go: SendMessage, ReceiveMessage")
p("Client and router agree on registrations",
  "A client that was not removed, never used a request ID twice for requests of the same kind and has read everything the router sent it accepts an INVOCATION for a registration ID exactly if the router registered it under that ID and it has not unregistered that ID since. If all REGISTERs for the procedures it registers ask for the \"single\" policy, that is: exactly if it is the one to whom the router routes the calls of a procedure registered under that ID. The same holds over byte streams in JSON, CBOR and MsgPack. With shared registrations the router may still send calls to a client whose UNREGISTER it has confirmed.",
  "all numbers of clients, all messages, all interleavings of sending, routing and delivering, all registrations and policies, all serializers and all pieces in which bytes arrive", "the tables of client and router agree or not after unboundedly many REGISTERs and UNREGISTERs under way at the same time", "session.go: SendMessage, ReceiveMessage", "dealer.go: ReceiveMessage, RemoveSession")
p("A caller gets what its callee yields, all of it and in order",
  "When the router passes a CALL on as an INVOCATION, the caller gets for it, if it stays and never uses a request ID twice, exactly one RESULT for each YIELD and one ERROR for an ERROR that the router is given for that invocation, up to and including the first that is final: none missing, none added or repeated, in the order of the YIELDs, with their contents, marked \"progress\" exactly if the YIELD is and the caller asked for progressive results. If only the callee answers the invocation, then once everything has arrived this is what the callee yielded, in the order in which it did. The same holds over byte streams in JSON, CBOR and MsgPack.",
  "all numbers of clients, all calls under way at the same time, all numbers of progressive results, all interleavings of sending, routing and delivering, all serializers and all pieces in which bytes arrive", "unboundedly many progressive results of unboundedly many calls may be interleaved; a test sees a few of the orders", "dealer.go: ReceiveMessage", "session.go: SendMessage, ReceiveMessage")
p("A broker that everybody has left is as good as new",
  "Once all sessions have been removed from a broker, it answers every further sequence of calls (AddSession, RemoveSession, HasSubscription, AutoDisclosePublisher, SUBSCRIBE, UNSUBSCRIBE, PUBLISH, and everything else it may be given) exactly as a new broker does: the same acknowledgements, errors, events and recipients. Only the subscription and publication IDs go on counting where they stopped, and AutoDisclosePublisher keeps its setting.",
  "all sequences of calls before, after which no session is attached, and all sequences of calls afterwards, with at most 2^53 calls in total", "that nothing of the past is left in any of the broker's maps and trees shows only in the infinitely many ways in which the future could go on", "broker.go: RemoveSession, ReceiveMessage, ReceivePublish")
p("A dealer that everybody has left is as good as new",
  "Once all sessions have been removed from a dealer, it answers every further sequence of calls as a new dealer does, except that registration and invocation IDs go on counting where they stopped and that AutoDiscloseCaller keeps its setting.",
  "all sequences of calls before, after which no session is attached, and all sequences of calls afterwards, with at most 2^53 calls in total", "that nothing of the past is left in any of the dealer's maps and trees shows only in the infinitely many ways in which the future could go on", "dealer.go: RemoveSession, ReceiveMessage")
p("The CBOR serializer speaks CBOR",
  "What CBORSerializer writes for a message is an item of RFC 8949 with exactly the content of the message, so that any implementation of CBOR reads the same; and it understands every encoding RFC 8949 allows for a message (heads of any length, half, single and double floats, null or undefined, map entries in any order, definite or indefinite lengths; no tags), within the library's limits, not only the encodings it writes itself. Text is UTF-8 as in RFC 3629 and numbers are as in IEEE 754. No bytes have two meanings.",
  "all messages, all byte strings that encode them according to the RFC, all map orders", "round-trip tests cannot notice that writer and reader agree on something other than the published format; a message has infinitely many encodings", "serializers/cbor.go: CBORSerializer.Serialize, Deserialize", "messages/*.go: Marshal, Parse")
p("The MsgPack serializer speaks MsgPack",
  "What MsgPackSerializer writes for a message is an object of the MsgPack specification with exactly the content of the message; and it understands every encoding the specification allows for a message (integers and lengths in any of their forms, map entries in any order, no extension types), not only the encodings it writes itself.",
  "all messages, all byte strings that encode them according to the specification, all map orders", "round-trip tests cannot notice that writer and reader agree on something other than the published format; a message has infinitely many encodings", "serializers/msgpack.go: MsgPackSerializer.Serialize, Deserialize", "util/util.go: AsUInt64", "messages/*.go: Marshal, Parse")
p("The JSON serializer speaks JSON",
  "What JSONSerializer writes for a message is a JSON text of RFC 8259 with exactly the content of the message, byte strings in base64 (RFC 4648), so that any implementation of JSON reads the same; and it understands every JSON text for a message (any white space, escapes and surrogate pairs, members in any order), not only those it writes itself; text behind the message is refused.",
  "all messages, all texts that RFC 8259 allows for them", "round-trip tests cannot notice that writer and reader agree on something other than the published format; a message has infinitely many JSON texts", "serializers/json.go: JSONSerializer.Serialize, Deserialize", "messages/*.go: Marshal, Parse", "util/util.go: AsUInt64")
p("Malformed and truncated messages are refused",
  "Deserialize of the three serializers returns an error for bytes that are not well-formed in their format: CBOR bytes that are not exactly one well-formed item, MsgPack bytes that do not begin with a complete object, texts that are not JSON. In particular a well-formed message of which the end is missing is always refused, wherever it was cut, and never taken for another message.",
  "all byte strings, all places at which a message may be cut", "a test can only try some malformed inputs; there are infinitely many and each nesting has its own places to be cut", "serializers/cbor.go: CBORSerializer.Deserialize", "serializers/msgpack.go: MsgPackSerializer.Deserialize", "serializers/json.go: JSONSerializer.Deserialize")
p("The authenticator is asked once, about the right client, and its refusal is passed on",
  "One message given to an Acceptor puts at most one question to the server's authenticator, and only the answer to it matters. In answer to HELLO the question is about the realm, authid and authextra of that HELLO, the method selected from its proposals and, for cryptosign, the public key it named; in answer to AUTHENTICATE it is about the client of the HELLO that got the last CHALLENGE, with the ticket AUTHENTICATE brought. If the authenticator refuses, the answer is ABORT wamp.error.authentication_failed with the text of the error as its only argument, and there is no session.",
  "all histories of an acceptor: all messages, authenticators (also stateful ones) and random values", "a test uses one authenticator and sees only that it was satisfied, not which questions other message orders lead to", "acceptor.go: Acceptor.ReceiveMessage", "auth/authenticator.go: NewRequest, NewCryptoSignRequest, NewTicketRequest")
p("A callee gets a call made in parts, complete and in order",
  "A client has registered a procedure exclusively, and neither gives the registration up nor is removed. Another client calls the procedure in parts: several CALLs with one request ID, all with the option progress. Then the first client gets one INVOCATION for each of these CALLs, with its content and its options progress and receive_progress, all under one invocation ID and in the order in which they were sent; nobody gets another INVOCATION with that ID. This holds for messages handed to the router and for byte streams in any of the three serializers.",
  "all executions of a router with any number of clients, in any interleaving of sending, routing and delivery, with any other calls and answers between the parts", "a test sends a few parts in one order and does not interleave them with other callers, other registrations and early answers", "dealer.go: Dealer.ReceiveMessage (Call)", "session.go: Session.SendMessage, Session.ReceiveMessage")
p("Generated CryptoSign key pairs work at both ends",
  "Both keys that GenerateCryptoSignKeyPair returns are texts of 64 lower-case hex digits. NewCryptoSignAuthenticator takes the private key and sends the public key as pubkey; it takes that pubkey in the authextra too and refuses every other text. The answer of such a client to any challenge of 32 bytes verifies with the public key. A client with the private key logs in, over each of the three serializers, at a router whose authenticator approves the public key, and both ends agree on the session.",
  "all seeds of 32 bytes, authids, authextras, challenges, realms and authenticators; all three serializers", "a test generates a few key pairs and cannot show that every pair works", "auth/cryptosign.go: GenerateCryptoSignKeyPair, NewCryptoSignAuthenticator, SignCryptoSignChallenge, VerifyCryptoSignSignature")
p("Clients that do not use this library cannot upset those that do",
  "Let some clients of a router not use this library's Session and send any WAMP message at any time, including messages that only routers send, UNSUBSCRIBE and UNREGISTER of other clients' IDs, and answers to other clients' requests. Every client that uses the library and does not reuse request IDs still accepts each EVENT, SUBSCRIBED, UNSUBSCRIBED, PUBLISHED, RESULT, REGISTERED and ERROR it is sent, and INVOCATION and UNREGISTERED as in C91; its requests are answered (C111), its events come only while it is subscribed (C113). For clients of either kind: each message has a cause that the recipient asked for (C105, C106), all get events in the same order (C107), a subscriber misses nothing that is published to its topic (C109), no request is settled twice (C116), a procedure registered by one client alone stays callable by all (C110), the answers to a call reach the caller (C121) and the parts of a call the callee (C129). When a client of this library has read everything, it and the router agree on its subscriptions and registrations (C115, C120).",
  "all sets of foreign clients, all messages they send, all interleavings of everyone's sends, the router's work and deliveries; up to 2^53 calls on the broker and dealer", "a test can send a few unexpected messages, not every message at every moment", "broker.go: Broker", "dealer.go: Dealer", "session.go: Session")
p("An intruder on the network cannot log in with WAMP-CRA",
  "Let an intruder choose every message that any number of acceptors and joiners receive, and let no MAC under a user's keys be made by anyone but the user's own clients. Then an acceptor sends WELCOME for that user by WAMP-CRA only if one of the user's clients was given the text of this very acceptor's CHALLENGE and signed it; and if acceptors draw different nonces there are never more such sessions than times the user's clients called SendHello.",
  "all numbers of acceptors and clients, all runs, all messages an intruder can send, all users, keys, salts and answers of the server's authenticator; MACs of different texts are assumed to differ", "the property is about everything an attacker can do, in every interleaving of many logins", "acceptor.go: Acceptor.ReceiveMessage", "joiner.go: Joiner.ReceiveMessage, SendHello", "auth/wampcra.go: GenerateWAMPCRAChallenge, SignWAMPCRAChallenge, VerifyWAMPCRASignature")
p("An intruder on the network cannot log in with CryptoSign",
  "With an intruder as in C132 and no forged signatures, an acceptor sends WELCOME for a user by CryptoSign only if one of the user's clients signed this acceptor's challenge, and there are never more such sessions than times the user's clients called SendHello.",
  "all numbers of acceptors and clients, all runs, all messages an intruder can send, all signature schemes and keys", "the property is about everything an attacker can do, in every interleaving of many logins", "acceptor.go: Acceptor.ReceiveMessage", "joiner.go: Joiner.ReceiveMessage", "auth/cryptosign.go: VerifyCryptoSignSignature")
p("A client joins only a router that accepted it",
  "When a client has joined, some router has opened a session with the same session ID, authid and role; an intruder that does not know the client's secret cannot make it join.",
  "all authenticators, all runs with an intruder as in C132", "the property is about everything an attacker can send", "joiner.go: Joiner.ReceiveMessage")
p("Logins work with other WAMP implementations",
  "The signature a WAMP-CRA client sends is base64 of the HMAC of the challenge under the secret, or under base64 of PBKDF2(secret, salt, iterations, keylen) when the CHALLENGE has a salt, with 1000 iterations and 32 bytes where numbers are missing; an acceptor's CHALLENGE carries exactly those fields and the WELCOME is sent exactly for that signature. A CryptoSign client sends hex of the signature of the challenge followed by the challenge, and an acceptor sends its challenge as hex and accepts such an answer. A ticket client sends its ticket.",
  "all secrets, salts, iteration counts and key lengths up to 2^53 in any number representation, challenges, keys, authenticators", "client and router of this library use the same helper functions, so they would agree with each other even if both were wrong", "auth/wampcra.go: Authenticate, DeriveWAMPCRAKey, SignWAMPCRAChallenge, VerifyWAMPCRASignature", "auth/cryptosign.go: Authenticate, SignCryptoSignChallenge, VerifyCryptoSignSignature", "auth/ticket.go: Authenticate", "acceptor.go: ReceiveMessage")
p("Secrets do not leave",
  "What a WAMP-CRA client sends depends on its secret only through the MACs of the challenges it was given, what a CryptoSign client sends on its private key only through the signatures of the challenges it was given, and what an acceptor sends on the users' WAMP-CRA secrets only through whether the signatures it received are right.",
  "all sequences of messages and calls, all pairs of secrets, all MAC functions that agree on the given challenges", "a test can look for the secret in a few messages, not compare all runs with all other secrets", "joiner.go: Joiner", "acceptor.go: Acceptor", "auth/wampcra.go", "auth/cryptosign.go")
p("Arbitrary bytes from other clients change nothing for the rest",
  "Clients that do not use this library write any bytes on their connections: no frames, frames with no message in them, messages no client should send, at any time. Still every complete frame of a client of this library is read as the message it sent; what such a client reads it can deserialize, and its Session accepts it; every message it reads has its own cause among the messages sent, in order; its requests are answered, each settled once; from SUBSCRIBED on it reads an EVENT for every PUBLISH to its topic, and no others; and once it has read everything, it and the router agree on its subscriptions and registrations.",
  "all sets of foreign clients, all bytes they write, all interleavings, all splittings of the byte streams, each session with JSON, CBOR or MsgPack, all messages within the serializers' limits", "tests try a few malformed inputs; here the adversary picks every byte and its timing", "transports/rawsocket.go: ReceiveMessageHeader, SendMessageHeader", "serializers: Deserialize", "session.go: Session", "broker.go: Broker", "dealer.go: Dealer")
p("Numbers survive JSON",
  "A finite float64 in a JSON payload is written as a number of RFC 8259 that stands for exactly this float64, with as few digits as possible and of those the nearest; every reader that rounds as IEEE 754 asks, and this library, gets exactly it back, minus zero included. A float32 is written with the digits a float32 needs and arrives as the float64 nearest to them. Any number that arrives, however a peer writes it, becomes the nearest float64 (ties to even); it is refused exactly if it is too large.",
  "all finite float64s and float32s, all numbers of the JSON grammar, of any length", "there are 2^64 floats and infinitely many ways to write a number; the hard cases are halfway between two floats or at the ends of the range", "serializers/payload.go: SerializePayload, DeserializePayload, JSONEncodePayload, JSONDecodePayload", "serializers/json.go: JSONSerializer")
p("A connection works from its first byte",
  "A client that connects over a raw socket, exchanges handshakes and logs in with one of the built-in authenticators, over JSON, MsgPack or CBOR and with any message size the handshake can express, ends up joined if the server approves it, and the router has welcomed it; both hold session details that agree, and no byte is left over. However the bytes are cut into pieces, whenever the pieces arrive and whoever reads first: every execution comes to an end, and it is this one. For any client, router and authenticators, also ones that fail, timing cannot change the outcome.",
  "all schedules of any length: all ways to cut and delay the bytes and to interleave the readers; all serializers, sizes, authenticators, realms and messages that fit into a frame", "a test sees one schedule; that all others end the same way is a statement about all interleavings", "transports/rawsocket.go: SendHandshake, ReceiveHandshake, SendMessageHeader, ReceiveMessageHeader", "joiner.go: SendHello, Receive", "acceptor.go: Receive")
p("Clients read what the router sent",
  "The frames a client reads from the router hold the messages the router sent to it, whatever other clients send. (Refuted: the header of a frame silently drops what does not fit into 24 bits, and a message can be larger when the router sends it on than when it arrived. Whoever may publish to a topic can so make every subscriber that uses MsgPack read any bytes as frames of the router. It holds exactly for payloads of less than 2^24 bytes.)",
  "all payloads and all bytes that follow; all broker states in which a publication is delivered, all bytes the publisher wants to plant (up to 4 MiB)", "needs messages of 16 MiB whose size grows on the way; a test with small messages never sees it", "transports/rawsocket.go: SendMessageHeader, ReceiveMessageHeader, intToBytes", "serializers/msgpack.go: Serialize, Deserialize", "broker.go: ReceivePublish")
p("Routing does not depend on chance",
  "Two routers that are given the same calls in the same order give the same answers and end up in the same state, whatever order Go walks through its maps in. (Refuted: when a topic or a procedure matches two wildcard patterns, chance decides which subscriber or callee gets the message. It holds otherwise, up to the order of the recipients of an EVENT, if nobody registers with the policy \"random\"; the state of a broker never depends on chance.)",
  "all pairs of call sequences of any length that differ only in the iteration orders of maps and in random numbers; all matching functions", "a test runs with the iteration orders it happens to get", "broker.go: RemoveSession, ReceivePublish", "dealer.go: RemoveSession, ReceiveMessage, wildcardMatch")
p("Calls return",
  "However many goroutines call methods of brokers, dealers and ID generators, no call waits forever: as long as a call is under way, one of them can go on, whatever the scheduler did before; if no more calls are made, all calls under way have returned after a number of steps that does not depend on the scheduler, and then every mutex is free. If calls keep coming, every call still returns, provided that the scheduler and the mutexes are fair, as those of Go are. No two goroutines are inside methods of the same broker or dealer at the same time.",
  "all numbers of goroutines, brokers, dealers and generators; all schedules; all calls, including calls that panic", "a deadlock needs a particular interleaving; a test sees the few that its scheduler produces", "broker.go: Broker, AddSession, RemoveSession, HasSubscription, AutoDisclosePublisher, ReceiveMessage, ReceivePublish", "dealer.go: Dealer, AddSession, RemoveSession, HasProcedure, AutoDiscloseCaller, ReceiveMessage", "idgen.go: SessionScopeIDGenerator.NextID")
p("The prefix table finds the longest pattern",
  "The tree in which brokers and dealers keep prefix patterns is a faithful table: whatever patterns were added, replaced and removed before, in whatever order, looking up a name yields what is stored under the longest stored pattern that the name begins with, and nothing only if no stored pattern is a prefix of the name.",
  "all histories of insertions and deletions, all patterns (also empty ones, and ones that are prefixes of each other) and all names", "splitting and merging nodes depends on how the byte strings of all patterns overlap; a test sees the few shapes of tree it builds", "broker.go: Broker.prefixTree, Broker.ReceiveMessage, Broker.RemoveSession, Broker.ReceivePublish", "dealer.go: Dealer.prefixTree, Dealer.ReceiveMessage, Dealer.RemoveSession", "go.mod: github.com/hashicorp/go-immutable-radix/v2")
p("What is over is forgotten",
  "A router that runs for long does not fill up with the past: every entry in the tables of its broker and its dealer, and of the sessions of its clients, belongs to a session that is attached, to a subscription or registration in force, or to a call or other request that waits for its answer, and none of them is stored twice; when everybody has left, nothing is stored.",
  "all histories of calls on a broker, a dealer or a session", "a leak shows only after a long time; a test that looks at answers does not see it at all", "broker.go: Broker.RemoveSession, Broker.ReceiveMessage", "dealer.go: Dealer.RemoveSession, Dealer.ReceiveMessage", "session.go: Session.SendMessage, Session.ReceiveMessage")
p("Concurrent use of a client session looks sequential",
  "When goroutines use a client Session at the same time, and no two calls that concern the same request (same kind and ID) are in progress at once, the calls return what they would return if they had been made one after the other in some order, an order in which a call that returned before another began comes first; once all have returned, the session is in the state which that order leads to.",
  "all interleavings of any number of concurrent SendMessage and ReceiveMessage calls, with any messages", "an interleaving that no order explains can be arbitrarily long and depends on the scheduler; tests try few", "session.go: Session.SendMessage, Session.ReceiveMessage", "internal/map.go: Map")
p("No bytes are a message in two formats",
  "No byte string is read as a message by two of the JSON, CBOR and MsgPack serializers; and whatever message one of them writes, each of the other two refuses the bytes with an error, it neither takes them for some other message nor crashes.",
  "all byte strings, all messages with any contents, all pairs of serializers and every order in which map entries are written", "there are infinitely many byte strings, and bytes that one format writes can be well-formed in another (a MsgPack message can be a CBOR list); tests try a few messages", "serializers/json.go: JSONSerializer.Deserialize", "serializers/cbor.go: CBORSerializer.Deserialize", "serializers/msgpack.go: MsgPackSerializer.Deserialize", "serializers/helpers.go: ToMessage", "messages/validator.go: ValidateMessage")
p("A refused client is told why",
  "When the server's authenticator refuses a login with an error, the bytes that the acceptor answers with make the client's Receive return an error whose text is 'wamp.error.authentication_failed: ' followed by the text of the authenticator's error; when none of the proposed methods is allowed, the text names them; when a signature is wrong, the text is 'wamp.error.authentication_failed' and nothing more. For any ABORT the text begins with its reason and shows every argument and keyword argument. The client's state does not change.",
  "all acceptor histories, all authenticators and error texts the format can carry (UTF-8 with JSON and CBOR, anything with MsgPack), the three serializers, all states of the client, all ABORTs", "the text is any string and passes through encoder, decoder, parser and formatting; tests check a literal or only that there is an error", "acceptor.go: Acceptor.ReceiveMessage", "joiner.go: Joiner.Receive, Joiner.ReceiveMessage", "auth/helpers.go: SelectAuthMethod")
p("A publication leaves no trace",
  "After a publication the broker answers every later call as it would have without it: the same EVENTs for the same recipients, the same acknowledgements, the same errors. The only difference is that IDs handed out afterwards are larger by one; the IDs of existing subscriptions stay.",
  "all broker histories, all publications of attached sessions, all sequences of later calls (at most 2^53 in total)", "it compares two executions for every continuation; a test compares the outcome of a few calls", "broker.go: Broker.ReceivePublish, Broker.ReceiveMessage, Broker.RemoveSession")
p("A call goes unnoticed by the others",
  "When a CALL becomes an INVOCATION of a registration without the round-robin policy, all other calls to the dealer get the same answers as without that CALL, however they are interleaved with any number of YIELDs and ERRORs for that INVOCATION. The only difference is that IDs handed out after the CALL are larger by one.",
  "all dealer histories, all CALLs that do not continue an earlier call, all sequences of other calls and all interleavings with answers to the call (at most 2^53 in total)", "it compares two executions for every continuation and interleaving; a test compares the outcome of a few calls", "dealer.go: Dealer.ReceiveMessage, Dealer.RemoveSession")
p("EncodeCBOR, DecodeCBOR and the CBOR payload functions fit together",
  "What EncodeCBOR writes, DecodeCBOR reads back with the same args and kwargs; and DecodeCBOR reads what SerializePayload writes for CBOR, as DeserializePayload reads what EncodeCBOR writes.",
  "all args and kwargs that fit CBOR's limits, all map iteration orders", "content is unbounded and nested; the tests of these functions use one list and one map", "serializers/cbor.go: EncodeCBOR, DecodeCBOR", "serializers/payload.go: SerializePayload, DeserializePayload")
p("Contents and unknown options do not influence the router",
  "What a router does depends on nothing that applications put into their messages, and on no options it does not know: if clients send messages that differ only in arguments, keyword arguments, bytes, the details of ERRORs, and options other than acknowledge (PUBLISH), match (SUBSCRIBE, REGISTER), invoke (REGISTER), progress (CALL, YIELD) and receive_progress (CALL), then the same clients are sent the same messages in the same order, except for those contents, and the broker, the dealer and all client sessions end up in the same states. An option of the wrong type, and a match policy other than prefix and wildcard, count as absent.",
  "all pairs of runs of a router with any number of clients, some of which need not use this library; all interleavings; all calls on a broker or a dealer", "a relation between two runs, over all contents and options", "broker.go: ReceiveMessage, ReceivePublish", "dealer.go: ReceiveMessage", "session.go: SendMessage, ReceiveMessage")
p("Unknown details of handshake messages are ignored",
  "Peers may put further details into HELLO, WELCOME and CHALLENGE: an acceptor answers the bytes of a HELLO as it answers those of any other HELLO with the same realm, authid, authmethods and authextra, and ends up in the same state; so does a client with a WELCOME of the same session ID, authid, authrole, authmethod and roles, and with a CHALLENGE of the same method, challenge, salt, iterations and keylen if it uses a built-in authenticator.",
  "all serializers, states, authenticators and environments of the acceptor, all pairs of messages that agree in those fields, in any representation", "peers of later versions send details that no test knows", "acceptor.go: Receive", "joiner.go: Receive", "messages/hello.go: Parse", "auth/wampcra.go: Authenticate")
p("Session IDs are only names",
  "No session is treated differently because of its ID: if sessions had got other IDs, no two the same, the same calls would have the same results under the new IDs - the same messages to the same sessions, except that disclosed publishers and callers appear with their new IDs - and in a router with clients the same moves would be possible and would leave every client with the same messages and the same state of its session.",
  "all permutations of session IDs; all sequences of calls on a broker or a dealer; all runs of a router with any number of clients, some of which need not use this library; all interleavings", "a relation between two runs, over all IDs", "broker.go: AddSession, RemoveSession, ReceiveMessage, ReceivePublish", "dealer.go: AddSession, RemoveSession, ReceiveMessage")
p("The error for a malformed message says what is wrong with it",
  "When Parse (or Deserialize) rejects a list, the text of the error names the class of message. If the number of elements is wrong it says how many are needed and how many there are. Otherwise it has exactly one line for each element of a wrong type, with its position, the type that belongs there and the type that is there, and no line about an element that is right. Only the order of the lines varies from run to run. If the elements are all right, the only error left is that of a HELLO one of whose proposed methods is not a string, and it shows the first such. False as it stands in four details: the error about UNSUBSCRIBE begins with 'unregister:', those about REGISTER and INVOCATION begin with the name of a Go field, those about a short HELLO or AUTHENTICATE say that two elements are enough (with two Parse panics), and the error for an unknown type code does not contain the code.",
  "all classes, all lists of elements, all orders in which Go may walk through the table of validators, all codecs and all inputs", "Go's map order varies from run to run; the tests check the text for two wrong elements of one table and no text of any of the 24 classes.", "messages/validator.go: ValidateMessage, validateID, validateString, validateSlice, validateMap, sanityCheck", "messages/*.go: Parse", "serializers/helpers.go: ToMessage", "serializers: Deserialize", "util/util.go: AnysToStrings")
p("The error of a broker or a dealer states a fact",
  "When a call to a Broker or a Dealer returns an error, its text is true of the calls made so far: the session it names is (or is not) attached, the subscription or registration it names is not held by that session, the callee or caller it names was there once and has left, the invocation it names was never sent or was answered before, the message type it names is the one received and is none the object handles. False as it stands in three details: AddSession and RemoveSession of the broker print the session ID in binary, so that session 5 is called 101, the ID of another session; a subscription that another session holds is called non-existent; and a YIELD for an unknown invocation is answered by saying that the session has no pending calls, although it may have some.",
  "all histories of calls in any order (fewer than 2^53 calls), all sessions, messages, IDs and map orders, and all matchers of patterns", "Whether a text is true depends on the whole history of calls; the tests compare seven texts after a few calls each.", "broker.go: AddSession, RemoveSession, ReceiveMessage, ReceivePublish", "dealer.go: AddSession, RemoveSession, ReceiveMessage")
p("The error of a client session states a fact",
  "When SendMessage, ReceiveMessage or Receive of a Session returns an error, its text is true of the calls made so far: no request of the named kind with the message's ID is outstanding, the subscription or registration is not held, the message type it names is the one given and is none the session sends or receives; and a failed serialization or deserialization is reported with the reason. False as it stands in two details: an ERROR about a message that is no request is refused with a text that does not contain the type of that message; and a second UNREGISTERED for the same request is blamed on the registration instead of on the request, which was answered before.",
  "all sequences of calls on a Session, all messages, IDs and bytes, all codecs, and all map orders of the checks of messages", "Whether a text is true depends on the whole history of calls; the tests of the session look at no text of an error.", "session.go: SendMessage, ReceiveMessage, Receive")
p("The error of a login states a fact",
  "When ReceiveMessage of an Acceptor or a Joiner returns an error, its text is true of the calls made so far: a WELCOME was sent, a CHALLENGE is (or is not) outstanding, the method named is the first one that both sides name and is unknown to the library, the authenticator's answer was of the wrong kind, the public key is missing, empty or not hexadecimal, the joiner did not expect the message. Receive passes these texts and those about malformed messages on; SendHello and SessionDetails fail exactly for the reason they give. The errors of the built-in client authenticators are exactly: Authenticate of the anonymous one, and a challenge that is not hexadecimal for the cryptosign one; NewCryptoSignAuthenticator's say that the private key is not hexadecimal or does not belong to the public key. False as it stands for a public key that is no text: the error says that it was a string.",
  "all histories of calls on an acceptor or a joiner, all messages, authenticators, random sources, authenticator errors and keys", "Whether a text is true depends on the calls before it, the authenticator and the random source; the tests compare only the text of the anonymous authenticator and that for an ABORT.", "acceptor.go: ReceiveMessage", "joiner.go: ReceiveMessage", "auth/anonymous.go: Authenticate", "auth/cryptosign.go: NewCryptoSignAuthenticator, Authenticate")
p("The errors about raw sockets, payloads and signatures state facts",
  "When SendHandshake, ReceiveHandshake, DeserializePayload, SerializePayload, DecodeCBOR, SignCryptoSignChallenge or VerifyCryptoSignSignature returns an error, its text names what is wrong with the input, and the numbers and types in it are those of the input: the size is above 16 megabytes, or no power of two of at least 512; the handshake has another length, first byte or reserved bytes; the serializer is unknown; the payload has too many elements, or its args or kwargs are of another type; the signature has the stated length. An error of an encoding package is passed on.",
  "all sizes, byte strings, serializer numbers, args and kwargs, codecs and texts of the encoding packages", "The inputs are unbounded and the tests look at no text of these errors.", "transports/rawsocket.go: SendHandshake, ReceiveHandshake", "serializers/payload.go: DeserializePayload, SerializePayload", "serializers/cbor.go: DecodeCBOR", "auth/cryptosign.go: SignCryptoSignChallenge, VerifyCryptoSignSignature")
p("The typed map is a map",
  "internal.Map returns for every key the value stored last, unless it was deleted since: Load and LoadAndDelete find it, LoadOrStore keeps it if there is one and says so, and Range calls the function once for every key with that value, or up to the first false. No call panics. The session's methods do on such maps what the model of the session says. False as it stands where the keys or values are of an interface type: once a nil is stored, every method that reads it panics.",
  "all sequences of calls, all key and value types, all functions passed to Range and all orders in which it visits the entries", "The tests make at most four calls on one map.", "internal/map.go: Map", "session.go: Session")
p("What is refused changes nothing",
  "A call on the broker, dealer, acceptor or joiner that is refused, with an error or, by the dealer, with an ERROR message, leaves no trace: every later call returns what it would return had the refused one not been made. For the acceptor this includes messages it answers with an ABORT. False as it stands for CALLs and YIELDs: a CALL refused because the callee has left is answered with a RESULT if anyone yields that invocation, and a YIELD refused because the caller has left ends the invocation.",
  "all states, refused calls and sequences of later calls and messages, all wildcard matchers, iteration orders and random numbers", "The tests never go on after an error.", "broker.go: Broker", "dealer.go: Dealer.ReceiveMessage", "acceptor.go: Acceptor.ReceiveMessage", "joiner.go: Joiner")
p("Topics and procedures are only names",
  "If every topic, procedure and pattern had another name, different ones for different ones, the broker and the dealer would return the same messages to the same recipients with the new names in them, and a router and its clients would do the same. The new names must begin with each other and match patterns as the old ones do; where nobody subscribes or registers patterns, broker and dealer do not even need that. In particular, everything can be moved below a common prefix without `*`, `?`, `[` and `\\`.",
  "all sequences of calls on broker and dealer, all executions of router and clients (of this library or others), all renamings, all wildcard matchers, iteration orders and random numbers", "The tests use the names they use; that no name is special, and that names are compared as a whole except by patterns, is about all of them.", "broker.go: Broker", "dealer.go: Dealer", "dealer.go: wildcardMatch", "session.go: Session")
p("Request IDs are only names",
  "If a client used other request IDs, different ones for different requests, its session would accept and refuse the same messages, the broker and the dealer would return the same messages to the same recipients with the new IDs in them, and a router and its clients would do the same. No ID is special, no ID of one client meets an ID of another, and IDs need not be consecutive or increasing.",
  "all sequences of calls on session, broker and dealer, all executions of router and clients (of this library or others), all renumberings per session, all wildcard matchers, iteration orders and random numbers", "The tests use small IDs and few clients; that clients which number their requests alike do not disturb each other is about all executions.", "session.go: Session", "broker.go: Broker", "dealer.go: Dealer")
p("Who the clients are makes no difference",
  "If the sessions belonged to other people (other auth IDs and auth roles, other realms, other ways to log in, other roles and extras), the broker and the dealer would return the same messages to the same recipients, and a router and its clients would do the same. Only where publishers or callers are disclosed, the new auth IDs and auth roles appear in place of the old ones.",
  "all sequences of calls on broker and dealer, all executions of router and clients (of this library or others), all changes of auth IDs and roles and of the other details but the session ID and the static serializer flag, all wildcard matchers, iteration orders and random numbers", "The tests attach sessions with a few fixed details; that none of them influences routing, and that they get into no other message, is about all executions.", "broker.go: Broker", "dealer.go: Dealer", "types.go: SessionDetails")
p("Subscribing again changes nothing, and leaving is giving everything up",
  "Who is subscribed to a topic and subscribes to it again gets the same subscription ID again and nothing changes. Who subscribes to a topic that others are subscribed to and unsubscribes at once leaves no trace. Removing a session is the same as unsubscribing any of its subscriptions, one after the other, and removing it then, whatever the order in which RemoveSession visits them. In each case all later calls return what they would have returned.",
  "all histories of a broker of at most 2^53 calls, all sessions, topics, request IDs and options, all orders, all later calls", "Tests compare a few calls after a few histories; that nothing ever tells the difference is about all of them.", "broker.go: Broker.ReceiveMessage", "broker.go: Broker.RemoveSession")
p("Leaving the dealer is giving up the registrations and leaving then",
  "Removing a session is the same as unregistering any of the registrations it holds, one after the other, and removing it then: the UNREGISTERs are answered, and after both all later calls (of all sessions) return the same, whatever the order in which RemoveSession visits the registrations.",
  "all histories of a dealer of at most 2^53 calls, all sessions, all lists of registrations that the session holds (alone or shared), all request IDs, all orders of visiting, all later calls", "Tests look at the registrations of a removed session in a few cases; that nothing ever tells the difference is about all histories and all later calls.", "dealer.go: Dealer.RemoveSession", "dealer.go: Dealer.ReceiveMessage")
p("A listener goes unnoticed",
  "While a session comes and goes and subscribes to and unsubscribes from topics to which another session is subscribed all the time (not as patterns), in any order and as often as it likes, every call of the others returns what it returns without the listener: the same errors, IDs, events and acknowledgements, and the same recipients but for the listener. Listening to patterns is noticed, and so is being the only subscriber.",
  "all histories of a broker and all later calls, at most 2^53 in all; all listeners, all sets of topics, all steady subscribers; whatever the others do, as long as the steady subscriber stays; all wildcard matchers and iteration orders", "A test compares a few calls with and without a subscriber; that a subscriber never influences what the others get is about pairs of executions of any length.", "broker.go: Broker.ReceiveMessage", "broker.go: Broker.ReceivePublish", "broker.go: Broker.AddSession", "broker.go: Broker.RemoveSession")
p("A client that only listens goes unnoticed",
  "A client joins a router, subscribes to and unsubscribes from topics to which another client is subscribed all the time (not as patterns), is removed, or sends what a router does not heed. Then everything else can happen in exactly the same way without it, and for the other clients nothing is different: they send and get the same messages, the same messages are under way, and their sessions end up in the same states. A client that listens to a pattern is noticed.",
  "all executions of a router (broker and dealer) and any number of clients with up to 2^53 calls on the broker; all listening clients, topics and steady subscribers; whatever the others do (publish, call, register, leave), as long as the steady subscriber stays subscribed; all interleavings, wildcard matchers, iteration orders and random numbers", "It compares pairs of executions of any length and with any interleaving; tests run one.", "broker.go: Broker.ReceiveMessage", "broker.go: Broker.ReceivePublish", "dealer.go: Dealer.ReceiveMessage", "dealer.go: Dealer.RemoveSession", "session.go: Session.ReceiveMessage")
p("Sizes of WAMP-CRA signatures and keys, and odd iteration counts",
  "With HMAC-SHA256 and PBKDF2 as Go computes them: SignWAMPCRAChallenge always returns 44 characters ending with '=', and whatever VerifyWAMPCRASignature accepts stands for 32 bytes. DeriveWAMPCRAKey returns the base64 text of exactly as many bytes as were asked for (32 for a key length of 0). An iteration count of 0 means 1000, every negative one means a single iteration. A key of a multiple of three bytes is the beginning of every longer key derived from the same secret, salt and iterations.",
  "all challenges, keys, signature texts, salts, secrets, iteration counts and key lengths that are not negative", "unbounded inputs; a test derives one key and looks at its length", "auth/wampcra.go: SignWAMPCRAChallenge", "auth/wampcra.go: DeriveWAMPCRAKey", "auth/wampcra.go: VerifyWAMPCRASignature")
p("Which secrets WAMP-CRA tells apart",
  "A signature made with one secret for one challenge verifies with another secret or for another challenge only if two different texts, those hashed for the two signatures, have the same SHA-256; so a login with WAMP-CRA succeeds only with the server's secret, unless SHA-256 collides.",
  "all pairs of secrets and challenges", "It is about all pairs of secrets; a test tries a wrong secret or two.", "auth/wampcra.go: SignWAMPCRAChallengeBytes", "auth/wampcra.go: VerifyWAMPCRASignature", "auth/wampcra.go: wampcraAuthenticator.Authenticate", "auth/wampcra.go: DeriveWAMPCRAKey", "acceptor.go: Acceptor.ReceiveMessage", "joiner.go: Joiner.ReceiveMessage")
p("Sizes of CryptoSign keys and signatures, and second signatures",
  "With Ed25519 as Go computes it: public keys have 32 bytes and signatures 64. SignCryptoSignChallenge answers every hex challenge with the hex text of the signature followed by the challenge, which VerifyCryptoSignSignature refuses for its length exactly if the challenge has not 32 bytes. A signature is accepted only if its second half is a number below the order of the base point, so adding the order to it gives no second signature.",
  "all seeds, challenges, messages, public keys and signatures", "2^256 keys and unbounded messages; a test signs one challenge with one key", "auth/cryptosign.go: SignCryptoSignChallenge", "auth/cryptosign.go: VerifyCryptoSignSignature", "auth/cryptosign.go: GenerateCryptoSignKeyPair", "auth/cryptosign.go: NewCryptoSignAuthenticator")
p("A public key for which everybody can sign",
  "Under the public key that consists of the byte 1 and zeros, VerifyCryptoSignSignature accepts the same 64 bytes (the byte 1 and zeros) as a signature of every challenge. Keys shorter than 32 bytes are filled up with zeros, so this also holds for the key 01. An acceptor whose authenticator approves of that key welcomes whoever answers in this way, without any private key and whatever the challenge is.",
  "all challenges of 32 bytes, all lengths of the key from 1 to 32 bytes, all authenticators that approve of the key, all realms and authids", "It is about all challenges, and about a key no test would try.", "auth/cryptosign.go: VerifyCryptoSignSignature", "acceptor.go: Acceptor.ReceiveMessage")

with open(os.path.join(os.path.dirname(__file__), "..", "properties.jsonl"), "w") as f:
    for x in P: f.write(json.dumps(x) + "\n")
print(len(P))
