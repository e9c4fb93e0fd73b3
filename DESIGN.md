# Formal model of bifurcation/mint in Lean 4 — design

The Go source is in `/repo` (read as text only, never built or run). The model is in `lean/Verif`.
Every Lean definition that models code carries a comment with the Go file and lines.
`properties.jsonl` has the properties, `MANIFEST.json` the theorems for each, `AXIOMS.md` the axioms of each theorem,
`seeded/LOG.jsonl` the experiments with wrong programs.

## Conventions

* Bytes are `UInt8`, byte strings are `List UInt8` (`Bytes`). nil and empty slices are identified
  unless a definition says otherwise.
* A Go call has four possible outcomes, all explicit in `Verif.Res`:
  `ok v` (normal return), `err e` (returned error or alert), `panic` (a runtime panic that escapes),
  `diverge` (a loop that never ends). There are no totalised defaults: an index out of range or nil
  dereference in Go is `panic` in the model.
* External functions (AEAD, hash, HMAC, key agreement, signatures, X.509, random source, clock)
  are parameters of the model. What is assumed of them appears as a hypothesis of the theorem that uses it.
* Hash collision freedom is never assumed globally (it is false for real hashes); theorems
  that need it conclude "the two values agree, or here is a collision among the inputs of these runs".
  Likewise forgery: "no frame that was delivered is a forgery", not "there are no forgeries".
* Layout: `Verif/<Area>/…` has the model and helper lemmas, `Verif/Spec/*.lean` has small
  specifications independent of the model's helper functions, `Verif/Props/*.lean` has the property theorems,
  named `Cnn_…`, with `example`s showing that hypotheses can be met.
* A property the code violates gets (a) a theorem `Cnn_…_fails` with a concrete witness execution of the
  model, or a universal refutation, and (b) theorems `Cnn_…_partial` proving the claim under the extra hypothesis that
  excludes the defect. The disagreement is recorded below. In MANIFEST.json such a property is `partial`.
* The full statement of a property is the one in `properties.jsonl`; what a `_partial` theorem lacks is in its doc comment and
  in the note of the property.

## Trusted base

1. The Lean 4.33.0 kernel.
2. The axioms `propext`, `Classical.choice`, `Quot.sound`, and no others. AXIOMS.md lists them for each theorem
   (`tools/axioms.py` regenerates it from `#print axioms`). There is no `sorry`, `admit`, `native_decide`, `bv_decide`,
   `axiom` in the project; `decide +kernel` (kernel evaluation of a `Decidable` instance, no further axioms) is used for
   concrete witnesses and examples only.
3. That the definitions say what the Go code does: a hand translation, cited line by line. Nothing checks this but reading. The
   next section says what was left out.
4. That the statements in `Verif/Props`, with the definitions in `Verif/Spec`, say what `properties.jsonl` says.

## What is modelled

| Go | Lean | left out or simplified |
|---|---|---|
| syntax/encode.go, syntax/decode.go | Syntax/Model | reflection: a schema is a value of the indexed family `Ty α` (uint, array, slice, struct, map, pointer, validator, custom marshaler), and `encode`/`decode` recurse on it as the reflection code does on `reflect.Type`; the type cache |
| syntax/tags.go | Syntax/Tags | `strconv.Atoi` is a function on digit strings; the reflect tag lookup |
| frame-reader.go | Record/FrameReader | capacity and aliasing of the buffer |
| record-layer.go | Record/Model | locks (see Conn/Concurrent); the AEAD is a parameter of a cipher state; logging |
| handshake-layer.go, reading half and fragmentation | Handshake/Layer | the record layer below is the list of results of its ReadRecord calls; `HandshakeLayer.sendAlert` (its only call is behind an index that panics first) |
| handshake-layer.go, writing half; dtls.go 20-129, 196-222 | Handshake/Flight | on top of the record layer's writer; an error of the transport ends a history |
| dtls.go 63-85, 135-194 | Handshake/Ack | of the timers, only whether the ACK timer is armed; `ReadMessage` taken apart into its steps |
| timer.go | Timer/Model | Go slices share arrays and `check` depends on it, so arrays are explicit; callbacks are arbitrary |
| extensions.go | Messages/Extensions, Messages/HasIdentity | |
| handshake-messages.go, ToBody, HandshakeMessageFromBody | Messages/Bodies | X.509: a certificate is its encoding, which ones parse is a parameter |
| negotiation.go | Negotiation/Model | logging |
| crypto.go | Crypto/Model | primitives are parameters (`Prims`, `Dh`, `Sig`); tables are literal |
| crypto.go 106-114, 313-329, 618-663 | Crypto/SelfSigned | generating keys, making and parsing certificates are parameters; times and key usages of the template |
| crypto.go 168-212, FFDHE cases of newKeyShare and keyAgreement; ffdhe.go | Crypto/Ffdhe | `rand.Int` gives a list of numbers; math/big is arithmetic on naturals |
| cookie-protector.go, Conn.ComputeExporter | Crypto/Exporter | x/crypto's HKDF is taken to be RFC 5869; a negative key length of the exporter |
| state-machine.go | Machine/Common, Machine/AppExtensions | `Config.ExtensionHandler` is nil except in Machine/AppExtensions (C94), which has single steps with its calls put in; `HandshakeContext.SetVersion` (it is in Conn/Stack); the DTLS flight bookkeeping the states call (`receivedEndOfFlight`, `receivedFinalFlight`; these are in Handshake/Ack) |
| client-state-machine.go | Machine/Client | as above; running hashes are the bytes written to them |
| server-state-machine.go | Machine/Server | as above; the reader of early data is a list of read events |
| conn.go, Config, PSKMapCache | Conn/Config | the mutex; pointers are addresses in `Mem` |
| conn.go, established connection | Conn/Model | TLS only; `Config.RecordLayer`; writing to the transport fails after Close only; constructing an AEAD does not fail |
| conn.go, established connection over DTLS | Conn/Datagram | whether the retransmission timer has expired is a parameter of Read; what is sent before a failure half way through the queue |
| conn.go, HandshakeSetup, Handshake, Read/Write before completion | Conn/Handshake | the layers below are arbitrary: what is read and which actions fail is given per call of Next |
| conn.go, GetHsState, ConnectionState, ComputeExporter, Writable | Conn/Report, Conn/Handshake | a suite is its entry in the table |
| conn.go, Handshake with all layers, two ends, a byte stream between them, and the connection it leaves behind | Conn/Stack | TLS, non-blocking; no alerts, tickets and early data on the wire; one AEAD, by key |
| conn.go, concurrent Read and Write | Conn/Concurrent | sequential consistency; what is shared is the outgoing record layer and the locks; SendKeyUpdate only as the fragment record-then-rekey; sharing of `c.state` |
| tls.go | Conn/Dial | what transport and Handshake return is given, and whether the timer fires first; a nil Config given to NewListener |
| alert.go | Machine/Common, Conn/Names | nothing |
| common.go | the files that use the constants; Conn/Names for the texts | `assert`, `Epoch.label` |
| log.go | Conn/Log | formatting of arguments |

Not modelled at all: `bin/`, `crypto/*` internals, X.509 path
validation, sockets, the Go scheduler and memory model beyond what is said above, memory exhaustion.

## Specifications (Verif/Spec)

* `Syntax`, `Tags`, `TagUse`: TLS presentation language, tag grammar.
* `Frames`, `Record`: frames of a byte stream, protected records.
* `Handshake`: messages on the wire, transcripts, the order of messages.
* `Choice`, `Messages`: what negotiation should choose, extension lists as maps. `Wire`: the bytes of messages and extensions.
* `KeySchedule`, `Schedule`, `Rfc`: RFC 5869, the key schedule of RFC 8446 section 7.1, and what follows from it for the messages of a
  connection, written from the RFC.
* `Views`: what an end has read, written and derived when it reports the handshake complete.
* `Agreement`: agreement of two views, up to named collisions. `Binding`: the secrets of an end and what they depend on. `Signer`: runs that sign, forgeries, and who answered whom. `Compatible`: which configurations should be able to connect,
  and faithful delivery between two ends. `Panics`: which messages crash the code.
* `Protection`: which keys protect which message, from RFC 8446.
* `Epochs`: the epochs of keys. `EarlyWrite`: when a client may send early data. `Stage`: how far a handshake is. `Ffdhe`: the groups of RFC 7919. `Issued`: cookies a server may accept. `Best`: the best in common.
* `Link`, `Stream`: two connected ends with records in flight; what was written and what was read. `Stack`: fair schedules,
  and two ends that are connected with nothing left between them.

## Results per property

Syntax.
* C01 round trip, C02 locality, C03 vector limits (both ways, and acceptance), C04 map determinism, C08 validators,
  C09 unambiguity, C10 canonicity, C58 misused tags, C59 map keys: proved by induction on the schema.
* C05 varints exact; a varint field narrower than its encoding does not round trip (`C05_varint_field_fails`: a uint8 holding 64).
* C06 no crash: refuted (optional pointer on empty input panics; a vector of zero-width elements never ends); proved for all other
  schemas.
* C07 tags: conflicts `head=1` with `head=none`/`varint` are accepted (`Consistent` compares `headerSize > 1`); the rest is proved.

Records.
* C11 frame reader independent of chunking: the reader's state is a function of the total input.
* C12 round trip, C14 integrity (ideal AEAD, accepted records form a prefix of the sent ones).
* C13 nonces: strictly increasing numbers; panic at the limit. Records that are emitted; see C53 for one sealed but not emitted.
* C15 limits: proved; a full fragment of 2^14 bytes cannot be written with any AEAD (`C15_full_fragment_fails`).
* C16 no crash: an authenticated all-zero plaintext indexes -1; otherwise proved for every stream and schedule.
* C17 peeking: transparent for `ReadRecord`; in DTLS a peek before `ReadRecordAnyEpoch` loses an old-epoch record.
* C18 epochs: unknown epochs are discarded; old-epoch records are decrypted with the current keys.

Handshake layer, DTLS, timers.
* C19: bodies below 2^24 bytes; a body of 2^24 bytes is written with length 0. C21 proved.
* C20: one message in any order and whole messages; stale fragments and interleaving break reassembly.
* C22: short alerts and fragments beyond the announced length panic; otherwise proved.
* C23: the note of a sent fragment has the number of the current cipher, not of the one used; proved when they are the same.
* C24: never early, at most once; `check` drops timers when one expires.

Negotiation and messages.
* C25 proved. C26: a share that is not a curve point crashes. C27: ticket age wraps. C28: server's list ignored with a PSK, unknown
  PSK modes. C29: schemes of another curve.
* C30 proved. C32: trailing bytes of a ServerHello are ignored. C31: session identifiers and a few other values are not expressible. C33: fails with a session identifier.
* C74: messages and extensions are those of RFC 8446, byte for byte, in both directions; exceptions are key shares of unknown groups
  and one extension number.
* C75: all that is given to the transport, in handshakes between two ends and afterwards, is records in the format of RFC 8446; the
  record of HelloRetryRequest has another version.
* C76: what every alert that ends a handshake means, in every state; messages of the wrong type and undecodable ones are answered as
  RFC 8446 demands; theorems for the deviations.
* C77: over DTLS only what arrived is acknowledged, and a flight is given up only if all of it arrived, for all histories of the two
  ends; the size of datagrams; theorems for the deviations.
* C78: a flight of unfragmented messages arrives, from the queue of the sender through both record layers to the messages returned,
  whatever is lost, repeated or reordered; with fragmented messages it arrives damaged even if nothing is.
* C79: over an established DTLS connection Read returns the data of what arrives, in that order, also around one key update that is
  lost, repeated or sent again; theorems for what forged records, several key updates and large tickets do.
* C80: whatever arrives at an established connection, TLS or DTLS, every call returns, unless record numbers are used up or the peer
  protects a record of zeros; theorems that it then crashes.
* C81: over an established DTLS connection Read returns only pieces of what the peer's Writes protected, whatever is delivered and
  whatever both ends do.
* C82: over an established DTLS connection, what Read makes of alerts, that nothing is sent after Close or a fatal alert, and that
  both ends store the PSK of a ticket; a theorem that a fatal alert of a peer running the same code is read as a closure.

Crypto.
* C34: labels separate up to 249 bytes; length fields wrap beyond; those in use are the RFC's and are far shorter. C35: the exporter does not hash the context. C36 proved as a
  reduction. C56: clients sign with the server's context string.
* C85: a secret held by two connections is for the same purpose and the same handshake, as a reduction to named collisions; so
  ComputeExporter identifies a connection.
* C86: a CertificateVerify that is accepted was made by the other end of this handshake, whatever else the key is used for, as a
  reduction to forgeries and named collisions.

State machines, for all runs (any messages in any order, any configuration).
* C37: a server is authenticated by certificate or PSK, except that a client believes a server that selects a PSK when none was
  offered. C38 proved. C39: RequireClientAuth is satisfied by an empty certificate list.
* C40: accepted sequences are the protocol's, except for repeated HelloRetryRequests and rejected early data.
* C41: agreement as a reduction to named collisions. C42: compatible configurations complete under any faithful delivery; the
  exceptions are shown by witnesses.
* C43: any number of HelloRetryRequests is answered. C44: four things are reported though not offered. C45: five ways to panic, and
  no others. C46: what is released, and when; four disagreements. C47, C48 proved. C57: expiry never looked at.
* C60: the keys of every message sent, and the reading keys at every moment; an unoffered grant of early data breaks it.
* C83: epochs are installed and used in order, for all runs; an unoffered grant of early data repeats epoch 2, and key updates all have
  epoch 4.
* C61: over TLS no message spans a change of keys; over DTLS the queue survives it.
* C62: a server that requires cookies sends nothing but HelloRetryRequests before it gets one it accepts; what cookies hold.
* C71: over streams, a server that wants a cookie is reached by clients that share no PSK with it.
* C63: what a DTLS reader returns under the current keys is what the peer sealed; duplicates are returned again; unprotected
  alerts and acknowledgements are acted on during the handshake.
* C64: whole records are judged one by one; a datagram cut short swallows the next.

Connection.
* C49: bytes read are a prefix of bytes written, all of them if everything is delivered; after end of file a record can be read twice.
* C72: end of file comes from the transport, or from a record of the peer behind everything read; Close is not announced.
* C73: what ConnectionState reports is what the messages of the handshake say, nothing before it is complete, and it does not
  change later.
* C50: Write succeeds if and only if buffer and overhead fit into one record. C51: the field that should remember a failure is never
  written. C52: alerts are sent with level and description exchanged. C53: locked programs never repeat a nonce; Read answers
  without the lock. C54: Clone drops RecordLayer, ValidForServer looks at the first certificate. C55 proved.
* C68: compatible ends connect over a byte stream, unless a message does not fit into one protected record.
* C69: after such a handshake, all that either end writes is read by the other, even what the client writes before the server's
  handshake is complete.
* C70: after such a handshake the session can be resumed with its ticket, unless protocols were offered and none was agreed on.
* C84: before the handshake is complete, Write writes only for a client whose early data was offered and not refused; still so after
  Handshake has failed.
* C87: every call of Handshake over TLS returns, with all layers, whatever arrives; but an alert of one byte in the clear crashes either
  end.
* C88: early data that is replayed is taken again only within ten seconds, if its ticket is from the last 2^32 milliseconds; theorems for
  the rest.
* C89: without a PSK the two ends get the best they have in common, or a collision is found; with one (`C89_psk`) they agree on keys in the best group unless the client allows the PSK alone, and get the suite and the protocol of the PSK; after retries, the suite only if the server accepts no cookies but those it gave out (`Spec/Issued.lean`).
* C90: the state reported is a function of what was read and sent (`Spec/Stage.lean`).
* C91: finite field groups: both ends get one secret, the primes are those of RFC 7919; shares out of range are accepted (`C91_range_fails`).
* C92: self-signed certificates (`Crypto/SelfSigned.lean`, `Spec/SelfSigned.lean`): made for a scheme they can be used with it, unless other ECDSA schemes or SHA-1 are offered too; not for PSS.
* C93: `HasIdentity` of a parsed extension gives the binder of the identity; one filled in by hand may crash.
* C94: extensions of the application (`Machine/AppExtensions.lean`, `Spec/AppExtensions.lean`): carried unchanged to the other handler and without influence on the negotiation, but for HelloRetryRequest.
* C95: the texts of alerts, suites and states (`Conn/Names.lean`) are all different.
* C96: what is logged (`Conn/Log.lean`, `Spec/Log.lean`) is what MINT_LOG asks for.
* C67: a server's early data is read in order and once, unless the ticket cannot be sent.
* C66: without retry and key update, secrets and Finished messages are those of RFC 8446.
* C65: Dial returns completed connections only and closes the transport otherwise; Accept and Listen leave things open on failure.

## Disagreements between the code and the properties

Each has a witness (`_fails`) in the properties named.

1. A client takes any `selected_identity = 0` for its PSK, even if it offered none; authentication is skipped (C37, C44).
2. A shared secret of zeros, from an X25519 share of small order, is not refused (C66). The client drops the error of keyAgreement,
   but there is none to drop: the decoder has checked the length of the share (`keyAgreement_no_err`).
3. An empty Certificate list, an invalid curve point, a HelloRetryRequest with a configured but unimplemented suite, or a cookie
   for a server without a CookieProtector panic (C26, C45).
4. HelloRetryRequests are not counted at either end (C40, C43); a retry narrows Config.CipherSuites for good (C44).
5. The protocol, early data and the suite (with a PSK) are not checked against the offer (C44).
6. After a HelloRetryRequest the binder covers different transcripts at the two ends (C42, C71), and so do the transcripts over DTLS with
   RequireCookie, since generating the request takes a message number (C42, C71).
7. message_hash has length 0 in its header (same at both ends, not the RFC's; C66).
8. After refusing early data the server skips records for ever (C40, C42, C46).
9. RequireClientAuth is not enforced (C39).
10. PSK expiry is never checked (C57), the age check wraps (C27), the server's suites are ignored with a PSK (C28, C89).
11. Write does not split at a size that can be sealed (C15, C50); sealing happens before the size check, and the number is then used
    again (C53).
12. Conn.sendAlert writes description before level (C52); alert 254 is mistaken for "would block" (C52).
13. A one-byte alert panics in the handshake layer (C22); it need not be protected, so six bytes crash any server that listens (C87). An all-zero plaintext panics (C16), so a peer can crash a program in
    Read (C80); RFC 8446, section 5.4, wants unexpected_message.
14. DTLS: stale fragments (C20), record numbers in acknowledgement notes (C23), old epochs (C17, C18).
15. Timers are dropped (C24).
16. `handshakeAlert` is never set (C51); a ticket that cannot be sent is reported once (C51), and unread
    early data is lost then (C67).
17. Config.Clone drops RecordLayer; ValidForServer (C54).
18. ComputeExporter (C35); label length fields (C34); signature context (C56).
19. A ClientHello with a session identifier is not marshalled faithfully (C31, C33).
20. Read's answers to KeyUpdate, and alerts, are written without the out lock (C53).
21. ECDSA schemes are accepted for keys on other curves (C29, C42); a group listed twice (C42).
22. The label used for key updates is "c ap traffic"/"s ap traffic" instead of "traffic upd" (same at both ends; C47, C66).
23. An early-data server accepts any selected identity, after a retry, without its protocol (C46).
24. A client granted early data it did not offer sends EndOfEarlyData under the handshake keys and installs the same keys again, so
    record numbers repeat under one key (C60).
25. DTLS fragments that came in the clear, for a later message, are kept over a change of keys and then handed over (C61).
26. DTLS has no replay protection: a datagram is accepted as many times as it arrives (`TODO` at record-layer.go:410; C63).
27. DTLS read keys are never discarded (DiscardReadKey has no caller), and handshake-layer.go:176-229 looks at the epoch of handshake
    records only: an unprotected alert ends, and an unprotected ACK is taken as genuine in, a protected handshake (C63).
28. The DTLS record layer reads datagrams as a byte stream: a record cut short is completed with the next datagram, which is lost (C64).
29. Dial speaks TLS over "udp4" and "udp6", also if UseDTLS is set, and drops RecordLayer (C65).
30. Dial keeps the brackets of an IPv6 address in the name it asks for; a deadline reached just now counts as none (C65).
31. Accept leaves the transport open after a failed handshake; Listen leaves the address bound when it refuses a non-blocking
    Config (C65).
32. Handshake messages are cut into pieces of 2^14 bytes, but a record holds 2^14 bytes with what encryption adds: an
    encrypted message that does not fit into one record, such as a long certificate chain, ends the handshake with internal_error (C68).
33. A client that offers protocols to a server with none in common connects without one; but the ticket of that session leads
    to a PSK without a protocol, and with it every later handshake ends with no_application_protocol (C70).
34. Read passes on end of file of the transport, and Close sends no close_notify: a stream cut short between two records
    cannot be told from a complete one (C72).
35. A server reports the client's certificates but never a verified chain: none is built (C73, C39).
36. A key share of a group that the library does not know, which every server ought to ignore, makes the key_share extension
    unreadable, and the handshake fails: `keyExchangeSizeFromNamedGroup` is 0 for it (C74).
37. The extension of a ticket that allows early data has number 46, which RFC 8446 does not know, instead of 42 (C74).
38. The record of a HelloRetryRequest has version 0x0301; RFC 8446, section 5.1, demands 0x0303: the server sets the version of
    its record layer later (server-state-machine.go:385; C75).
39. Over DTLS the version of a record layer is zero until it is set, and writing a record then panics (dtls.go:46): a server
    that asks for a retry, sends an alert or acknowledges anything before it has accepted a ClientHello crashes (C75). This is
    in the way of every DTLS handshake with a HelloRetryRequest.
40. A change_cipher_spec record during the handshake is an error instead of being dropped (record-layer.go:383-388; C75).
41. Protected DTLS records have the 13-byte header of DTLS 1.2, with the sequence number in the clear, and the epoch is part of
    the nonce; RFC 9147, section 4, differs (C75).
42. The alert of a failed state transition is returned by Handshake but not sent; only close_notify, and the alerts of actions that
    fail, are (conn.go:772-791; C76). So a peer learns of the failure only by a closed or silent transport.
43. A wrong Finished, and a CertificateVerify with a bad signature, are answered with handshake_failure instead of decrypt_error; an
    undecodable ServerHello with unexpected_message; one without supported_versions with missing_extension, with another version in
    it with protocol_version, with a suite that was not offered with handshake_failure (C76).
44. Bytes after a ServerHello are ignored (client-state-machine.go:337 calls Unmarshal, not safeUnmarshal; C32, C76).
45. A CertificateRequest without signature_algorithms is accepted, and the handshake fails later (C76).
46. Records that do not decrypt, and records that carry something other than a handshake message, end a handshake with close_notify
    (conn.go:705-723; C76).
47. A message of unknown type is answered with decode_error where two types are possible (C76).
48. An ACK lists the first 149 records of a flight; records that arrive after these are never acknowledged while the flight lasts
    (dtls.go:66-69; C77). RFC 9147, section 7, wants the most recent ones.
49. When the last flight comes again because the ACK was lost, nothing is sent: fragments of messages already delivered do not arm the
    ACK timer (handshake-layer.go:262-266; C77). RFC 9147, section 5.8.1, requires the ACK to be sent again.
50. A handshake fragment is cut to 1200 bytes (`initialMtu`) without regard to the header and tag of the record, so datagrams have up
    to 1230 bytes (handshake-layer.go:172; C77).
51. Over DTLS a record in the clear is reported by the record layer as number 0, whatever its number (record-layer.go:430-437 and 297 set
    `seq` only when decrypting), and acknowledged as such. When the first record of a hello is lost and the second arrives, the sender
    takes the first for acknowledged and never sends it again: the handshake cannot complete (C77).
52. A server that got only part of a ClientHello crashes when its ACK timer fires (item 39; C77).
53. KeyUpdate and NewSessionTicket are never acknowledged over DTLS, so they stay in the queue of the sender and are sent again at
    every expiry of its timer and together with every later message (conn.go:307-401, 839-866; C79). RFC 9147, sections 7 and 8.
54. All keys after the first key update have epoch 4 (state-machine.go:113-137, `EpochUpdate`). With item 53 this makes Read fail even
    on a perfect network: after two key updates and one expiry of the timer, or after three key updates, a KeyUpdate under
    the previous keys arrives with the epoch of the present ones (C79).
55. A sender changes keys with the KeyUpdate, not when it is acknowledged: if the datagram is lost, all later data is dropped until the
    sender calls Read with an expired timer (C79). RFC 9147, section 8.
56. A record with the current epoch that does not decrypt makes Read fail; anyone who can send datagrams can do this (C79). RFC 9147,
    section 4.5.2, wants it to be discarded.
57. After the handshake a fragmented message over DTLS makes Read fail once per fragment, as consumeRecord takes each fragment for a
    whole message (conn.go:319-337); so a ticket that does not fit in one record is lost (C79).
58. After Handshake has failed on the first message from the server, a client that offered early data can still Write, and the bytes
    go out as early data (conn.go:471-508, 728-837, 909-921; C84).
59. A first flight can be replayed: accepted hellos are not remembered, PSKs that are not from tickets have no age, and the age of a
    ticket is counted modulo 2^32 milliseconds while its expiry is not looked at (negotiation.go:55-116; C88).
60. Key shares of the FFDHE groups are not validated, so that a peer can fix the secret to 0 or 1; nor is the result of X25519 (C91).
61. MakeNewSelfSignedCert makes keys but no certificates for the PSS schemes, which `x509AlgMap` does not have (crypto.go:106-114); a
    certificate made for ECDSA on P-384 or P-521 fails with clients that offer the default schemes, by item 21 (C92).
62. ExtensionHandler.Send is called for HelloRetryRequests, but a client aborts if one has more than two extensions, even if its own
    handler accepts it (server-state-machine.go:431-438, client-state-machine.go:383-405; C94).

## Testing the theorems against wrong programs

`tools/mutate.py` takes a list of edits of the model. For each it copies `lean/` outside /verif, applies the edit (and, with
`also`, edits of inversion lemmas that only restate the definition, so that failures show up where something is claimed),
rebuilds, replaces failing proofs by `sorry` in the copy only, and reports which property theorems then depend on `sorryAx`. Each
attempt is a line of `seeded/LOG.jsonl`. A theorem that survived an edit that made its English claim false was tightened;
the line says which.

## Tools

* `tools/manifest.py`: MANIFEST.json and lean/Verif.lean from the sources and `tools/notes.json`.
* `tools/axioms.py`: AXIOMS.md.
* `tools/mutate.py`: see above.
* `tools/sweep.py`: the same for edits drawn mechanically from every definition of the model.
