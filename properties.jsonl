{"id": "C01", "title": "Marshal/Unmarshal round trip", "statement": "If syntax.Marshal succeeds on a value of a self-delimiting type (no head=none vectors, no vectors of zero-width elements) whose varint fields fit the varint range of their integer type (see C05 for the others), then syntax.Unmarshal on the produced bytes followed by any other bytes succeeds, consumes exactly the produced bytes, and returns an equal value (maps equal as finite maps, omitted fields reset to zero).", "quantifier": "every schema built from uints, arrays, slices, structs, maps, pointers, custom marshalers and every tag option; every value of it; every suffix of trailing bytes", "why_tests_cant": "the set of schemas, values and suffixes is infinite; tests fix a handful of Go struct types and literals", "anchors": ["syntax/encode.go: Marshal, encodeState", "syntax/decode.go: Unmarshal, decodeState", "syntax/tags.go: fieldOptions"]}
{"id": "C02", "title": "Unmarshal is local: bounded consumption and prefix determinacy", "statement": "A successful Unmarshal reports a number of consumed bytes that never exceeds the input length, and for types without head=none vectors the result depends only on the consumed prefix: replacing everything after it by any other bytes gives the same value and the same count.", "quantifier": "every schema, every input byte string, every replacement suffix", "why_tests_cant": "tests check particular inputs; parsers that read ahead differ only on unseen suffixes", "anchors": ["syntax/decode.go: Unmarshal, readVarint, decodeLength, sliceDecoder.decode, structDecoder.decode"]}
{"id": "C03", "title": "Vector length limits hold in both directions", "statement": "Every vector with a max or min tag that is successfully encoded or decoded has an encoded body whose byte length lies within the tagged limits and fits in the length header; conversely no vector within the limits that fits its header is refused on account of its length.", "quantifier": "every header kind and size, every min/max, every element type, every value or input", "why_tests_cant": "boundary combinations of header size, limits and contents are unbounded", "anchors": ["syntax/encode.go: encodeLength, sliceEncoder.encode", "syntax/decode.go: decodeLength, sliceDecoder.decode", "syntax/tags.go: parseTag"]}
{"id": "C04", "title": "Map encoding is deterministic", "statement": "The bytes produced for a map do not depend on the iteration order of the Go map, and the entries appear in strictly increasing order of their encoded keys.", "quantifier": "every map, every iteration order the Go runtime may choose", "why_tests_cant": "Go randomises iteration order per run; a test sees a few of the n! orders", "anchors": ["syntax/encode.go: mapEncoder.encode"]}
{"id": "C05", "title": "Varint codec is exact", "statement": "A variable-length integer below 2^62 is written in the shortest of the four forms, reads back as itself with the right byte count in front of any suffix, and any value of 2^62 or more is refused; a varint field that Marshal accepts is also accepted by Unmarshal into the same integer type.", "quantifier": "every 64-bit value, every integer width, every suffix", "why_tests_cant": "2^64 values times all suffixes", "anchors": ["syntax/encode.go: writeVarint, varintEncoder", "syntax/decode.go: readVarint, varintDecoder"]}
{"id": "C06", "title": "Unmarshal never crashes or hangs", "statement": "syntax.Unmarshal on attacker-chosen bytes either returns a value or returns an error; it never lets a runtime panic escape and never loops forever.", "quantifier": "every schema, every byte string", "why_tests_cant": "absence of crash over all inputs cannot be sampled", "anchors": ["syntax/decode.go: Unmarshal, pointerDecoder.decode, sliceDecoder.decode"]}
{"id": "C07", "title": "Tag strings are parsed faithfully and conflicts are refused", "statement": "parseTag accepts a tag string only if every part is well formed, the resulting options are exactly the ones named, and no two options that contradict each other (two different vector headers, a vector header with optional or varint, min above max) survive; a number that is not a number is refused.", "quantifier": "every tag string", "why_tests_cant": "tag strings are unbounded and their combinations are not enumerated by tests", "anchors": ["syntax/tags.go: parseTag, fieldOptions.Consistent, mutuallyExclusive"]}
{"id": "C08", "title": "Type validators are enforced both ways", "statement": "A value whose type carries a validity check is never emitted by Marshal and never returned by Unmarshal unless the check accepts it, at any nesting depth.", "quantifier": "every schema with validators at any position, every value, every input", "why_tests_cant": "nesting positions and inputs are unbounded", "anchors": ["syntax/encode.go: validatorEncoder", "syntax/decode.go: validatorDecoder"]}
{"id": "C09", "title": "Encodings are unambiguous", "statement": "Two values of the same self-delimiting type with the same encoding are equal, and no encoding is a proper prefix of the encoding of another value.", "quantifier": "every pair of values of every self-delimiting schema", "why_tests_cant": "quantifies over pairs of values", "anchors": ["syntax/encode.go: Marshal"]}
{"id": "C10", "title": "Decoding is canonical for fixed-width schemas", "statement": "For schemas without varints, maps, custom codecs and omitted fields, re-encoding what Unmarshal returned reproduces exactly the bytes it consumed, so no two byte strings decode to the same value.", "quantifier": "every such schema and every accepted input", "why_tests_cant": "malleability is an absence claim over all inputs", "anchors": ["syntax/decode.go", "syntax/encode.go"]}
{"id": "C11", "title": "Frame extraction is independent of chunking", "statement": "However a byte stream is cut into chunks by the transport, the frame reader yields the same sequence of frames, the concatenation of headers and bodies of those frames is a prefix of the stream, and nothing is lost, duplicated or reordered.", "quantifier": "every byte stream, every way of cutting it into chunks, every header length", "why_tests_cant": "the number of cuts is exponential in the stream length", "anchors": ["frame-reader.go: frameReader.addChunk, frameReader.process, frameReader.needed"]}
{"id": "C12", "title": "Record round trip", "statement": "The sequence of records written by one side (any content types, fragments, paddings) is exactly the sequence of content types and fragments returned by the peer's ReadRecord under matching keys, in order, without loss.", "quantifier": "every sequence of records, paddings, keys, AEAD satisfying open-after-seal, starting sequence numbers", "why_tests_cant": "histories are unbounded; a single off-by-one in padding or sequence handling only shows on some of them", "anchors": ["record-layer.go: WriteRecord, WriteRecordWithPadding, writeRecordWithPadding, ReadRecord, nextRecord, encrypt, decrypt"]}
{"id": "C13", "title": "Nonces are never reused under one key", "statement": "Under one traffic key no two records emitted by a record layer are sealed with the same nonce, in TLS and in DTLS; when the sequence number space is exhausted sealing stops instead of wrapping.", "quantifier": "every history of writes and rekeys, every IV of the suite's length, up to 2^48 records", "why_tests_cant": "needs reasoning about 2^48 records", "anchors": ["record-layer.go: cipherState.computeNonce, incrementSequenceNumber, combineSeq, encrypt, Rekey"]}
{"id": "C14", "title": "Record integrity, order and replay protection over TLS", "statement": "If the AEAD opens only what was sealed with the same key, nonce and header, then whatever bytes an attacker feeds to a TLS reader, the records it accepts are a prefix of the records the peer sent under that key, in order, each at most once.", "quantifier": "every attacker byte stream and every send history", "why_tests_cant": "adversary strategies are unbounded", "anchors": ["record-layer.go: nextRecord, decrypt, computeNonce"]}
{"id": "C15", "title": "Record size limits", "statement": "ReadRecord never returns a fragment longer than 2^14 bytes and refuses a record announcing more than 2^14+256 bytes before decrypting; WriteRecord never emits a record body longer than 2^14 bytes, announces exactly the body it emits, and accepts every plaintext fragment of up to 2^14 bytes.", "quantifier": "every input stream, every fragment and padding length, every AEAD overhead", "why_tests_cant": "boundary sizes for every cipher and padding", "anchors": ["record-layer.go: maxFragmentLen, nextRecord, writeRecordWithPadding"]}
{"id": "C16", "title": "Reading records never crashes", "statement": "ReadRecord and PeekRecordType on arbitrary bytes return a record or an error (or would-block) and never panic.", "quantifier": "every byte stream, key state, AEAD behaviour", "why_tests_cant": "absence of crash over all inputs", "anchors": ["record-layer.go: nextRecord, decrypt, PeekRecordType"]}
{"id": "C17", "title": "Peeking does not change what is read", "statement": "Any number of PeekRecordType calls between reads does not lose, duplicate or reorder records, and the type reported is the (decrypted) content type of the record returned next.", "quantifier": "every stream, every interleaving of peeks and reads", "why_tests_cant": "interleavings are unbounded", "anchors": ["record-layer.go: PeekRecordType, ReadRecord, nextRecord"]}
{"id": "C18", "title": "DTLS epoch separation", "statement": "In DTLS a record is processed with the keys of the epoch in its header; records of unknown epochs are discarded, records of known but non-current epochs are returned only to ReadRecordAnyEpoch.", "quantifier": "every sequence of rekeys, discards and incoming records", "why_tests_cant": "epoch histories and reorderings are unbounded", "anchors": ["record-layer.go: nextRecord, decrypt, Rekey, DiscardReadKey, ReadRecordAnyEpoch"]}
{"id": "C19", "title": "Handshake message fragmentation round trip over TLS", "statement": "Any sequence of handshake messages written over TLS, cut into records of any size, is read back as the same sequence of types and bodies.", "quantifier": "every sequence of messages of any length, every record segmentation", "why_tests_cant": "segmentations are exponential", "anchors": ["handshake-layer.go: WriteMessage, writeFragment, ReadMessage, readRecord, HandshakeMessage.Marshal"]}
{"id": "C20", "title": "DTLS reassembly is independent of arrival order", "statement": "Fragments that tile a message, arriving in any order, with any duplication and overlap, reassemble to exactly the message that was sent.", "quantifier": "every message, every fragmentation, every arrival order with duplicates", "why_tests_cant": "n! orders times duplications", "anchors": ["handshake-layer.go: newFragmentReceived, checkMessageAvailable, noteMessageDelivered"]}
{"id": "C21", "title": "DTLS messages are delivered in order and at most once", "statement": "The messages returned by ReadMessage over DTLS carry consecutive message sequence numbers starting at zero, whatever fragments arrive; a message that was already delivered is never delivered again.", "quantifier": "every history of incoming fragments", "why_tests_cant": "unbounded histories with reordering and replay", "anchors": ["handshake-layer.go: newFragmentReceived, checkMessageAvailable, noteMessageDelivered"]}
{"id": "C22", "title": "Malformed handshake fragments never crash", "statement": "No sequence of handshake or alert records, however malformed, makes ReadMessage panic.", "quantifier": "every record history", "why_tests_cant": "absence claim over all inputs", "anchors": ["handshake-layer.go: readRecord, ReadMessage, newFragmentReceived, checkMessageAvailable"]}
{"id": "C23", "title": "DTLS acknowledged data only is skipped on retransmission", "statement": "On retransmission a fragment is left out only if every byte of it was covered by fragments whose record numbers the peer acknowledged; the flight is considered delivered only when all bytes of all its messages were acknowledged.", "quantifier": "every flight, fragmentation, ACK history", "why_tests_cant": "unbounded histories", "anchors": ["dtls.go: processAck, fragmentAcked, handshakeRetransmit", "handshake-layer.go: writeFragment"]}
{"id": "C24", "title": "Timers fire exactly when due", "statement": "A started timer that is not cancelled fires exactly once, at the first check after its deadline; cancelled timers never fire; the remaining time reported is the time to the earliest pending timer.", "quantifier": "every sequence of start, cancel, check operations and clock values", "why_tests_cant": "schedules are unbounded", "anchors": ["timer.go: timerSet.start, check, remaining, cancel"]}
{"id": "C25", "title": "Version negotiation", "statement": "The negotiated version is the first version in the client's list that the server supports; negotiation fails exactly when the lists are disjoint, so a version neither side listed is never selected.", "quantifier": "every pair of version lists", "why_tests_cant": "all list pairs", "anchors": ["negotiation.go: VersionNegotiation"]}
{"id": "C26", "title": "Key share negotiation", "statement": "A selected group was offered by the client with a share of the correct size for that group and is supported by the server, and the first such offer for which key agreement succeeds is used; no selection means no such offer exists.", "quantifier": "every list of key shares and groups, every key agreement behaviour", "why_tests_cant": "all list pairs and cryptographic outcomes", "anchors": ["negotiation.go: DHNegotiation", "crypto.go: newKeyShare, keyAgreement"]}
{"id": "C27", "title": "PSK selection proves possession", "statement": "A PSK is selected only if the client listed an identity the server knows, with a plausible ticket age and a binder that verifies under that PSK over the hello context; an identity with a bad binder aborts the handshake instead of being skipped.", "quantifier": "every identity list, binder list, cache content, clock", "why_tests_cant": "all lists and binder values", "anchors": ["negotiation.go: PSKNegotiation"]}
{"id": "C28", "title": "Cipher suite, ALPN and PSK-mode selection", "statement": "The selected cipher suite was offered by the client and supported by the server; the selected application protocol was offered by the client and is one of the server's; the PSK mode chosen is allowed by the client and by the server's key material.", "quantifier": "every pair of preference lists", "why_tests_cant": "all list pairs", "anchors": ["negotiation.go: CipherSuiteNegotiation, ALPNNegotiation, PSKModeNegotiation, EarlyDataNegotiation"]}
{"id": "C29", "title": "Certificate selection", "statement": "The certificate chosen matches the requested server name when one is given, comes with a signature scheme the client offered and that its private key can produce, and one is found whenever some configured certificate qualifies.", "quantifier": "every certificate list, server name, scheme list", "why_tests_cant": "all list pairs", "anchors": ["negotiation.go: CertificateSelection", "crypto.go: schemeValidForKey"]}
{"id": "C30", "title": "Extension lists behave as maps", "statement": "After Add, the extension of that type is the one found, all others are unchanged, and each type occurs at most once in a list built by Add from empty; Parse refuses lists in which a type it looks for occurs twice and finds exactly the extensions present.", "quantifier": "every list and every sequence of Add operations", "why_tests_cant": "operation sequences are unbounded", "anchors": ["extensions.go: ExtensionList.Add, Parse, Find"]}
{"id": "C31", "title": "Handshake bodies and extensions round trip", "statement": "Every handshake message body and extension body the library can marshal is unmarshalled by the library to the same contents.", "quantifier": "every message and extension type, all field contents", "why_tests_cant": "field contents are unbounded", "anchors": ["handshake-messages.go", "extensions.go"]}
{"id": "C32", "title": "Parsing peer messages never crashes and never ignores trailing bytes", "statement": "Turning a received handshake message into a body (and its extensions into bodies) never panics or hangs, whatever the bytes, and a message with unparsed trailing bytes is refused.", "quantifier": "every message type and byte string", "why_tests_cant": "absence claim over all inputs", "anchors": ["handshake-layer.go: HandshakeMessage.ToBody, safeUnmarshal", "handshake-messages.go", "extensions.go"]}
{"id": "C33", "title": "Truncated ClientHello is a prefix of the bytes received", "statement": "The byte string over which the PSK binder is computed is the received ClientHello message with exactly the binder list removed, so client and server authenticate the same bytes.", "quantifier": "every ClientHello ending in a PSK extension", "why_tests_cant": "all hellos and binder lists", "anchors": ["handshake-messages.go: ClientHelloBody.Truncated, Marshal"]}
{"id": "C34", "title": "Key derivation labels separate purposes", "statement": "Two HKDF-Expand-Label calls with different label, context or length feed different info strings to HKDF, so keys for different purposes are derived from different inputs; output has exactly the requested length and shorter outputs are prefixes only when the info is the same.", "quantifier": "all labels, contexts, lengths", "why_tests_cant": "injectivity is a statement about all pairs", "anchors": ["crypto.go: hkdfEncodeLabel, HkdfExpand, HkdfExpandLabel, makeTrafficKeys"]}
{"id": "C35", "title": "Exporter output binds the context", "statement": "ComputeExporter on both ends of one connection gives equal values for equal label and context, and different contexts or labels are derived through different inputs, as the RFC exporter requires (the context enters through its hash).", "quantifier": "all labels and contexts", "why_tests_cant": "all pairs", "anchors": ["conn.go: ComputeExporter"]}
{"id": "C36", "title": "Cookies are authentic", "statement": "A cookie decodes only if it was produced by the same protector, and decoding returns exactly the protected state; any other byte string is refused without a crash.", "quantifier": "every plaintext, every byte string presented as cookie", "why_tests_cant": "all byte strings", "anchors": ["cookie-protector.go: NewToken, DecodeToken", "server-state-machine.go: serverStateStart.Next"]}
{"id": "C37", "title": "A connected client authenticated the server", "statement": "A client that reports the handshake complete has either verified the server's CertificateVerify over the transcript and accepted its certificate chain (unless verification was disabled), or both ends proved possession of a PSK the client itself offered.", "quantifier": "every client configuration, every sequence of messages sent by an arbitrary server", "why_tests_cant": "attacker message sequences are unbounded", "anchors": ["client-state-machine.go: clientStateWaitSH.Next, clientStateWaitEE.Next, clientStateWaitCV.Next, clientStateWaitFinished.Next"]}
{"id": "C38", "title": "Finished is always checked before completion", "statement": "No side reports the handshake complete without having received a Finished message whose verify data equals the MAC of its own transcript under the peer's finished key.", "quantifier": "all configurations and all message sequences", "why_tests_cant": "attacker message sequences are unbounded", "anchors": ["client-state-machine.go: clientStateWaitFinished.Next", "server-state-machine.go: serverStateWaitFinished.Next"]}
{"id": "C39", "title": "RequireClientAuth is enforced", "statement": "A server configured with RequireClientAuth reports the handshake complete only if the client presented a certificate and a CertificateVerify that verifies under it over the transcript.", "quantifier": "all server configurations with the flag, all message sequences", "why_tests_cant": "attacker message sequences are unbounded", "anchors": ["server-state-machine.go: serverStateNegotiated, serverStateWaitCert, serverStateWaitCV, serverStateWaitFinished", "conn.go: Config.RequireClientAuth"]}
{"id": "C40", "title": "Handshake messages are accepted only in protocol order", "statement": "The messages each side accepts until completion form a word of the TLS 1.3 handshake language for that role; any other message yields a fatal alert and no progress.", "quantifier": "all message sequences of any length", "why_tests_cant": "sequences are unbounded", "anchors": ["client-state-machine.go", "server-state-machine.go"]}
{"id": "C41", "title": "Both ends agree", "statement": "If the client completes with a Finished computed by the server, then unless a hash or MAC collision occurred both ends have the same transcript, hence the same version-independent parameters: cipher suite, PSK use, early data, ALPN and traffic secrets.", "quantifier": "all pairs of executions of client and server connected by an arbitrary network", "why_tests_cant": "quantifies over all interleavings and modifications", "anchors": ["client-state-machine.go", "server-state-machine.go"]}
{"id": "C42", "title": "An honest handshake completes", "statement": "When a client and server with compatible configurations are connected by a faithful channel, both sides complete the handshake and end with identical traffic keys in opposite directions.", "quantifier": "all compatible configurations, randomness, key material", "why_tests_cant": "configurations are unbounded", "anchors": ["client-state-machine.go", "server-state-machine.go", "state-machine.go"]}
{"id": "C43", "title": "Hello retry happens at most once", "statement": "A client answers at most one HelloRetryRequest per connection, and only with a hello that differs as the request demanded; a second one is a fatal error.", "quantifier": "all message sequences", "why_tests_cant": "attacker sequences are unbounded", "anchors": ["client-state-machine.go: clientStateWaitSH.Next, clientStateStart.Next"]}
{"id": "C44", "title": "Negotiated parameters were offered", "statement": "The cipher suite, version, key share group, PSK, ALPN protocol and early-data acceptance reported by a connected client are ones it offered in its ClientHello.", "quantifier": "all server message sequences", "why_tests_cant": "attacker sequences are unbounded", "anchors": ["client-state-machine.go: clientStateWaitSH.Next, clientStateWaitEE.Next", "conn.go: ConnectionState"]}
{"id": "C45", "title": "Transition functions never crash", "statement": "No message, at any state, makes either state machine panic.", "quantifier": "all states and messages", "why_tests_cant": "absence claim over all inputs", "anchors": ["client-state-machine.go", "server-state-machine.go", "state-machine.go"]}
{"id": "C46", "title": "Early data is released only when accepted", "statement": "A server returns early data to the application only from a connection whose first PSK was accepted with matching ALPN, without hello retry and with AllowEarlyData; data sent by a client whose early data was refused is skipped and the handshake still completes.", "quantifier": "all configurations and client behaviours", "why_tests_cant": "sequences unbounded", "anchors": ["negotiation.go: EarlyDataNegotiation", "server-state-machine.go: serverStateNegotiated.Next, serverStateReadPastEarlyData.Next", "conn.go: Handshake"]}
{"id": "C47", "title": "Key update keeps both directions in step", "statement": "After any sequence of key updates initiated by either side and processed in order, each side's write secret equals the peer's read secret and each key is used in one direction only.", "quantifier": "all interleavings of updates and data", "why_tests_cant": "interleavings unbounded", "anchors": ["state-machine.go: stateConnected.KeyUpdate, ProcessMessage", "conn.go: SendKeyUpdate, takeAction"]}
{"id": "C48", "title": "Resumption secrets agree", "statement": "The PSK a client stores for a NewSessionTicket equals the PSK the server stored for that ticket, with the same cipher suite and ALPN, and distinct tickets give PSKs derived with distinct nonces.", "quantifier": "all connections and numbers of tickets", "why_tests_cant": "unbounded", "anchors": ["state-machine.go: stateConnected.NewSessionTicket, ProcessMessage"]}
{"id": "C49", "title": "Application data stream is preserved", "statement": "The bytes returned by Read on one end are, in order, a prefix of the bytes accepted by Write on the other end, regardless of the sizes of the Write and Read buffers; Write reports exactly the bytes sent.", "quantifier": "all sequences of writes and reads with any buffer sizes", "why_tests_cant": "sequences are unbounded", "anchors": ["conn.go: Write, Read, readPartial, consumeRecord"]}
{"id": "C50", "title": "Write accepts any buffer", "statement": "On an established connection over a working transport Write succeeds for every buffer length.", "quantifier": "all buffer lengths and AEADs", "why_tests_cant": "boundary lengths depend on cipher overhead", "anchors": ["conn.go: Write", "record-layer.go: writeRecordWithPadding"]}
{"id": "C51", "title": "Handshake errors are final", "statement": "Once Handshake has failed, later calls to Handshake, Read and Write on that connection fail and the connection never becomes usable.", "quantifier": "all message sequences and call sequences", "why_tests_cant": "call sequences unbounded", "anchors": ["conn.go: Handshake, Read, Write, sendAlert"]}
{"id": "C52", "title": "Alerts reach the peer with their meaning", "statement": "An alert sent on a connection is decoded by the peer as the same alert, and fatal alerts terminate both directions.", "quantifier": "all alert codes, both sending paths", "why_tests_cant": "all pairs of sender and receiver paths", "anchors": ["conn.go: sendAlert, consumeRecord", "handshake-layer.go: sendAlert, readRecord", "alert.go"]}
{"id": "C53", "title": "Concurrent use does not reuse nonces", "statement": "When Read and Write are called concurrently from different goroutines, no schedule makes two records be sealed with the same key and nonce.", "quantifier": "all schedules of any number of concurrent callers", "why_tests_cant": "schedules are exponential and races are rare", "anchors": ["conn.go: Read, Write, consumeRecord, takeAction, sendAlert", "record-layer.go: writeRecordWithPadding"]}
{"id": "C54", "title": "Config handling is stable", "statement": "Clone returns an independent configuration that behaves identically, Init only fills unset fields and is idempotent, and validity checks succeed exactly when the needed material is present.", "quantifier": "all configurations", "why_tests_cant": "all combinations of fields", "anchors": ["conn.go: Config.Clone, Init, ValidForServer, ValidForClient"]}
{"id": "C55", "title": "PSK cache is a map", "statement": "A PSK stored under a key is returned for that key until overwritten, lookups of other keys are unaffected, and Size counts distinct keys.", "quantifier": "all operation sequences", "why_tests_cant": "sequences unbounded", "anchors": ["conn.go: PSKMapCache"]}
{"id": "C56", "title": "Signature context separates roles", "statement": "The bytes signed in CertificateVerify determine the transcript hash and the role of the signer, so a signature made by one role or over another transcript is never accepted as the other.", "quantifier": "all transcript hashes and both roles", "why_tests_cant": "all pairs", "anchors": ["handshake-messages.go: CertificateVerifyBody.EncodeSignatureInput, Sign, Verify"]}
{"id": "C57", "title": "Expired PSKs are not used", "statement": "A stored PSK is neither offered nor accepted after its expiry time.", "quantifier": "all clocks and tickets", "why_tests_cant": "clock values unbounded", "anchors": ["client-state-machine.go: clientStateStart.Next", "negotiation.go: PSKNegotiation", "state-machine.go: NewSessionTicket"]}
{"id": "C58", "title": "Misused tags are refused", "statement": "Marshal and Unmarshal refuse, for every value and input, any type in which a tag option is put on a field it has no meaning for (vector options on a non-vector, varint on a non-integer, optional on a non-pointer), at any nesting depth.", "quantifier": "every schema, every nesting, every value and input", "why_tests_cant": "Tests cover a handful of tag/type pairs at top level; the claim is about every type built by nesting.", "anchors": ["syntax/tags.go:71-94", "syntax/encode.go:273-295", "syntax/decode.go:376-395"]}
{"id": "C59", "title": "Decoded maps have distinct keys, last entry wins", "statement": "Unmarshalling a map from any input yields distinct keys; when the input lists a key several times, in any order among other entries, the value of its last entry is the one stored.", "quantifier": "every key and value schema, every list of entries in any order with any repetitions", "why_tests_cant": "Unit tests only decode maps their own encoder produced, which never repeats a key.", "anchors": ["syntax/decode.go:321-348"]}
{"id": "C60", "title": "Each handshake message is protected with the keys the protocol names", "statement": "Whatever it reads, a client puts nothing on the wire in the clear but ClientHellos and a server nothing but ServerHellos and HelloRetryRequests. An end that completes the handshake has sent every message under the traffic keys RFC 8446 names for it (early data, handshake, application, as updated), at every moment of the handshake was reading with the keys RFC 8446 names for what it had received, and never sealed two messages with the same keys and record number.", "quantifier": "every configuration of either end, every sequence of messages received, every random source, every prefix of the execution", "why_tests_cant": "Tests run two ends of the same library against each other, which agree even if both use the wrong keys; whether clear text or a repeated nonce can be provoked depends on what a hostile peer sends.", "anchors": ["client-state-machine.go:905-1087", "server-state-machine.go:471-764", "server-state-machine.go:1119-1177", "state-machine.go:113-137", "state-machine.go:185-247", "conn.go:575-643"]}
{"id": "C61", "title": "No handshake message spans a change of keys", "statement": "When the receiving keys change in the course of a handshake, every handshake message handed over before the change consists only of bytes of records read under the old keys and every message handed over after it only of bytes of records read under the new keys; if records read under the old keys carry bytes beyond the messages handed over, the change is refused with decode_error.", "quantifier": "every sequence of records, however messages are cut into records, however reads are scheduled, any number of key changes", "why_tests_cant": "A hostile peer chooses how messages and records overlap and what follows a message in the same record; tests only see the library's own fragmentation.", "anchors": ["conn.go:598-609", "handshake-layer.go:260-294", "handshake-layer.go:296-347", "handshake-layer.go:349-401", "frame-reader.go:61-98"]}
{"id": "C62", "title": "RequireCookie is enforced", "statement": "A server configured with RequireCookie sends nothing but HelloRetryRequests until it gets a ClientHello with a cookie its CookieProtector decodes and whose application part its CookieHandler, if there is one, validates (unless the handler's Generate returned nil for that hello). A cookie that does not decode or is not validated ends the handshake with decrypt_error or access_denied. The cookie of each HelloRetryRequest holds the selected suite, the hash of the hello it answers, and exactly what Generate gave. With the default protector a cookie that is accepted is one that was issued under the same secret, short of a forgery of the AEAD or a collision of HKDF.", "quantifier": "every configuration, every sequence of messages from any peer, every protector and handler", "why_tests_cant": "The denial-of-service guarantee is about every hello an attacker may send before any state is held for it; tests try a valid cookie and a corrupted one.", "anchors": ["server-state-machine.go:170-203", "server-state-machine.go:261-330", "server-state-machine.go:406-445", "cookie-protector.go:42-86", "conn.go:38-48", "conn.go:675-682"]}
{"id": "C63", "title": "DTLS records are authentic and not replayed", "statement": "Over DTLS, every record a reader returns under the current keys is one the peer sent in that epoch with that number, type and content, and it is returned at most once; once keys are installed, the handshake does not act on unprotected records.", "quantifier": "every AEAD that opens only what the peer sealed, every sequence of datagrams and transport errors, every mixture of ReadRecord and ReadRecordAnyEpoch, any number of key changes before", "why_tests_cant": "The network may drop, reorder, duplicate and invent datagrams without bound; tests replay a few captured ones.", "anchors": ["record-layer.go: nextRecord, decrypt, ReadRecord, ReadRecordAnyEpoch, Rekey, DiscardReadKey", "handshake-layer.go: readRecord"]}
{"id": "C64", "title": "Datagrams are independent of one another", "statement": "Over DTLS, whether and how a reader returns the records of one datagram does not depend on the other datagrams that arrive: datagrams that are damaged, forged, repeated or cut short do not keep the others from being read.", "quantifier": "every sequence of datagrams, every reader state that holds no partial record, any keys", "why_tests_cant": "An attacker chooses the number, content and position of the inserted datagrams.", "anchors": ["record-layer.go: nextRecord", "frame-reader.go: process, addChunk, needed"]}
{"id": "C65", "title": "Dialing and listening", "statement": "Dial and DialWithDialer return a connection exactly if the transport connects and the handshake completes within the dialer's timeout and deadline; otherwise they return an error and the transport is closed. They leave the caller's Config unchanged and use its settings, with ServerName, if empty, set to the host of the address, and DTLS on datagram networks. Listen returns a listener exactly if the Config is usable for a server and the address can be bound, and leaves nothing open otherwise. Accept returns a nil error exactly for connections whose handshake is complete, and does not leave connections open whose handshake failed.", "quantifier": "every address, network, Config, timeout and deadline, every outcome of transport and handshake", "why_tests_cant": "Tests dial a handful of well-formed addresses on loopback and look at the successful result; what is left of the caller's Config and of the transport in each failure is not looked at.", "anchors": ["tls.go:36-48", "tls.go:54-77", "tls.go:92-179"]}
{"id": "C66", "title": "Secrets and Finished messages are those of RFC 8446", "statement": "Over TLS, the application traffic secrets, exporter secret and resumption secret of a connection, and the contents of both Finished messages, are what RFC 8446 (4.4.1, 4.4.4, 7.1, 7.2, 7.4) defines from the messages sent and received, the PSK in use and the Diffie-Hellman secret, so that a conforming peer computes the same.", "quantifier": "every configuration, every completed run of either end with any peer, every hash function and group", "why_tests_cant": "Interoperability tests compare a few connections with one other implementation; two ends of the same library agree also where both are wrong.", "anchors": ["client-state-machine.go:388-547", "client-state-machine.go:905-1087", "server-state-machine.go:471-764", "server-state-machine.go:1119-1177", "state-machine.go:113-137", "crypto.go:262-311"]}
{"id": "C67", "title": "A server's application reads all accepted early data, in order and once", "statement": "On a server, what Read returned before the handshake was complete, followed by what Read returns first after it, is the early data that arrived before EndOfEarlyData, in order, nothing missing and nothing twice, however calls of Handshake and Read are interleaved and whatever their buffers.", "quantifier": "every configuration, every interleaving of Handshake (blocking or not) and Read with any buffer sizes, every sequence of records and messages, every failure of calls in between", "why_tests_cant": "The early data moves between two buffers at a moment that depends on how calls interleave; a test reads it in one way, usually all after the handshake.", "anchors": ["conn.go:403-435", "conn.go:796-826", "server-state-machine.go:785-853"]}
{"id": "C68", "title": "Two ends connect over a byte stream", "statement": "A client and a server with compatible configurations, each calling Handshake over its end of a reliable byte stream, both complete, with the same parameters and secrets, whatever the order in which calls are made and however the stream cuts the bytes; no call of Handshake fails on the way; and afterwards each end reads with the keys and the sequence number the other writes with, and nothing is left over in between.", "quantifier": "every pair of compatible configurations, every interleaving of non-blocking calls of Handshake, every way the transport cuts the bytes into pieces and delays them, every lawful AEAD, every outcome of the random number generators", "why_tests_cant": "Tests connect two ends over one in-memory pipe with one schedule; a message split inside a header, a key change between two records read in one piece, or a call that finds half a record, occur only under particular timings.", "anchors": ["conn.go:575-643", "conn.go:705-723", "conn.go:728-837", "handshake-layer.go:349-401", "handshake-layer.go:496-522", "record-layer.go:337-451", "record-layer.go:461-509", "state-machine.go:12-247"]}
{"id": "C69", "title": "Application data gets through from the start", "statement": "After Handshake has returned on a client, it may Write at once, even though the server's Handshake has not returned yet. The server's Handshake still completes, and its Reads then return exactly the bytes the client's Writes reported, in order, however the transport cuts what it carries; and what the server writes once its Handshake has returned is read by the client in the same way. If after the handshake the transport delivers anything else, without forging records, Reads return a prefix of what was written.", "quantifier": "every pair of compatible configurations, every interleaving of calls of Handshake, every moment at which the client begins to write, every sequence of calls made afterwards by the writing end, every way the transport cuts and delays the bytes, every lawful AEAD", "why_tests_cant": "Whether application data lands in the server's buffer behind the last handshake message, or in the middle of a read of it, depends on timing; tests exchange data after both calls of Handshake have returned.", "anchors": ["conn.go:414-468", "conn.go:471-508", "conn.go:575-643", "conn.go:728-837", "record-layer.go:179-189", "record-layer.go:337-451", "record-layer.go:461-509", "frame-reader.go:28-98", "state-machine.go:12-247"]}
{"id": "C70", "title": "A session can be resumed", "statement": "After a handshake has completed, the client reads the ticket the server sends, and both store the same PSK. At the next connection between the same two configurations, while the ticket is not too old and the two clocks have not drifted apart, the handshake completes again whatever the order in which messages arrive; it uses the PSK of the ticket, and has the cipher suite and the application protocol of the first session.", "quantifier": "every pair of compatible configurations, every execution of the first handshake, every ticket, every execution of the second handshake, all times at which the ticket can be used", "why_tests_cant": "Tests resume with one pair of configurations, at once, and with a protocol agreed on or none offered; whether any configuration that connects once also connects the second time is a statement about all of them.", "anchors": ["state-machine.go:139-178", "state-machine.go:185-247", "conn.go:50-63", "conn.go:624-632", "conn.go:801-815", "client-state-machine.go:161-275", "server-state-machine.go:204-245", "negotiation.go:55-116", "negotiation.go:197-218"]}
{"id": "C71", "title": "A server that asks for a cookie can be reached", "statement": "A client and a server with RequireCookie set, whose configurations are otherwise compatible, complete the handshake when their messages are delivered as sent: the client brings back the cookie of the HelloRetryRequest, the server accepts it, and both end with the same parameters and secrets; no step fails on the way. The CookieProtector installed by default, and any that decodes its own tokens, will do.", "quantifier": "every pair of compatible configurations, every CookieProtector that decodes its own tokens, every CookieHandler that accepts its own cookies, every order of delivery, every outcome of the random number generators", "why_tests_cant": "The server keeps no state between the two hellos; whether what it rebuilds from the cookie agrees with the client's transcript for every suite, extension and cookie is not settled by one exchange.", "anchors": ["client-state-machine.go:325-386", "server-state-machine.go:90-404", "server-state-machine.go:406-445", "cookie-protector.go:42-86"]}
{"id": "C72", "title": "End of file from Read means that the peer has ended the connection", "statement": "If Read on an established connection reports end of file, the peer has done something that ends it, and everything the peer wrote before that has been returned by earlier Reads; whoever controls the transport cannot make a shortened stream look like a complete one. Conversely a peer that calls Close makes Read report end of file.", "quantifier": "every established connection, every sequence of calls at both ends, everything the transport may deliver short of a forgery", "why_tests_cant": "A test sees the end of file it provokes; that no delivery of any sequence of records, at any point of any sequence of calls, brings it about is a statement about all of them.", "anchors": ["conn.go:307-401", "conn.go:414-468", "conn.go:512-543", "record-layer.go:337-451"]}
{"id": "C73", "title": "ConnectionState tells what was negotiated", "statement": "Before the handshake is complete ConnectionState reports nothing but the state of the handshake, which is a Connected one exactly when it is complete, and ComputeExporter fails. Afterwards the cipher suite is that of the ServerHello, the protocol and the use of early data are those of EncryptedExtensions, UsingPSK says whether the ServerHello selects a PSK, PeerCertificates are those in the peer's Certificate message, and VerifiedChains what verification of them gave. None of this changes while the connection is used, and both ends report the same.", "quantifier": "every sequence of calls of Handshake and Read, including failed ones; every handshake that completes; every sequence of calls afterwards, whatever the transport delivers", "why_tests_cant": "Tests look at the report after a few handshakes; that it follows the messages in every handshake, with and without a retry, a PSK, client authentication, and that no later message or key update can change it, concerns all executions.", "anchors": ["conn.go:250-258", "conn.go:868-921", "client-state-machine.go:905-1087", "server-state-machine.go:1036-1177", "state-machine.go:91-247"]}
{"id": "C74", "title": "Messages and extensions have the wire format of RFC 8446", "statement": "The Marshal methods of handshake messages and extension bodies produce exactly the bytes that RFC 8446 (and RFC 6066, 7301, 9147) prescribes for their contents, within its length limits; the Unmarshal methods accept exactly the byte strings that RFC 8446 allows and return what these stand for; messages and extensions carry the numbers of RFC 8446. So other implementations understand what is sent, and whatever a conforming peer sends is understood.", "quantifier": "every value of every message and extension type, every byte string", "why_tests_cant": "Tests compare a few recorded byte strings, and marshal-unmarshal round trips are blind to an encoding that is wrong in the same way in both directions; agreement with a published format concerns all values and all byte strings.", "anchors": ["handshake-messages.go:27-481", "extensions.go:19-626", "common.go:34-48", "common.go:115-129", "handshake-layer.go:45-118", "syntax/encode.go:1-402", "syntax/decode.go:1-437"]}
{"id": "C75", "title": "Records have the format of RFC 8446", "statement": "Everything given to the transport is a sequence of records of at most 2^14 bytes each. Without keys a record is type, version, length and content; with keys it is an application_data record whose payload is the AEAD encryption of content, type and padding, with the record header as additional data and a nonce that is the exclusive or of the IV and the number of the record under these keys. What is read under keys decrypts to content, a nonzero type and padding. The version field is 0x0303, is ignored on receipt, and over datagrams it is that of DTLS 1.2 followed by epoch and sequence number.", "quantifier": "every record, key, sequence number and padding; every handshake of a client and a server, whatever is delivered; every sequence of calls afterwards", "why_tests_cant": "Tests read what the same library wrote, which hides an error made in both directions, and look at a few records; the format of every record of every connection, and the version it carries at every point of the handshake, concern all executions.", "anchors": ["record-layer.go:138-164", "record-layer.go:202-299", "record-layer.go:337-509", "dtls.go:32-47", "state-machine.go:81-88", "server-state-machine.go:385", "client-state-machine.go:272", "client-state-machine.go:422"]}
{"id": "C76", "title": "Failures are answered with the alert RFC 8446 prescribes", "statement": "When a handshake fails, the alert that Handshake returns, and that is sent to the peer, is the one RFC 8446 demands for what went wrong, and it is never a different reason: unexpected_message for a message of a type that is not expected, decode_error for one that does not decode, decrypt_error for a Finished or a signature that does not verify, illegal_parameter, missing_extension, protocol_version and handshake_failure for contents that are not acceptable, bad_certificate for a certificate that is not trusted, no_application_protocol if there is no common protocol; alerts have the numbers of RFC 8446.", "quantifier": "every state of client and server, every message and configuration", "why_tests_cant": "Tests check that some failures fail, for a few messages; that an alert tells the truth about what went wrong concerns all states and all messages that can arrive in them.", "anchors": ["alert.go:13-51", "client-state-machine.go:70-1087", "server-state-machine.go:90-1177", "state-machine.go:91-247", "conn.go:512-536", "conn.go:705-723", "conn.go:758-791"]}
{"id": "C77", "title": "DTLS acknowledges what arrived, and only that, and datagrams fit the path", "statement": "Over DTLS an end acknowledges exactly handshake records that reached it: every ACK lists the records of the current flight in the order of arrival (as many as fit), in the format of RFC 9147, and the last flight of the handshake is acknowledged at once, again if it comes again. When an end gives up its flight as received because of ACKs, every byte of it did reach the peer. No record with a handshake message is longer than what fits into a UDP datagram on every IPv6 path.", "quantifier": "every sequence of records, timer expiries, key changes and ends of flights at both ends; every flight and every loss, repetition and reordering of records and ACKs", "why_tests_cant": "Tests lose or repeat a few chosen packets; that an acknowledgement is never given for what did not arrive concerns all histories of two ends over an unreliable transport.", "anchors": ["dtls.go:63-85", "dtls.go:87-129", "dtls.go:135-194", "handshake-layer.go:176-229", "handshake-layer.go:427-494"]}
{"id": "C78", "title": "A DTLS flight gets through an unreliable transport", "statement": "Over DTLS the messages an end queues for a flight are returned by the peer's handshake layer unchanged, in order and each once, whatever datagrams of the flight and of its retransmissions are lost, repeated or reordered, as far as some copy of each arrived; waiting for more never turns into an error, and when the sender stops retransmitting because of acknowledgements that name only what arrived, the peer gets every message of the flight.", "quantifier": "every flight, every history of sending, resending, acknowledging and changing keys, every selection of its records in every order with every repetition, every number of reads", "why_tests_cant": "Tests drop or swap a few chosen packets; here every subset, order and repetition of the records of every flight is concerned, through both record layers and the reassembly.", "anchors": ["handshake-layer.go:248-401", "handshake-layer.go:403-536", "record-layer.go:337-509", "dtls.go:50-129"]}
{"id": "C79", "title": "Data over an established DTLS connection", "statement": "Over an established DTLS connection, Read returns the application data of the datagrams that arrive, unchanged and in the order of arrival, whatever the network loses, repeats or reorders among what the peer wrote; records that do not belong to the connection do not make Read fail; key updates and tickets of the peer are acknowledged, take effect, and do not disturb the data around them.", "quantifier": "every sequence of Writes at one end, every selection of the resulting datagrams in every order with every repetition, every number of key updates, every sequence of Reads", "why_tests_cant": "Tests exchange a few datagrams in order; here all selections, orders and repetitions of what is sent, and all numbers of key updates, are concerned, through both record layers.", "anchors": ["conn.go:307-508", "conn.go:575-643", "conn.go:839-866", "record-layer.go:337-509", "dtls.go:50-129", "state-machine.go:113-247"]}
{"id": "C80", "title": "An established connection survives whatever arrives", "statement": "Once a connection is established, no sequence of bytes or datagrams that the transport delivers, in whatever pieces, with whatever transport errors and expiries of timers in between, makes a call of Read, Write, SendKeyUpdate or Close crash the program or go on for ever without waiting for the transport.", "quantifier": "every content of the transport including what only the peer or only an attacker could have made, every segmentation, every sequence of calls, every suite, TLS and DTLS", "why_tests_cant": "Tests deliver a few well-formed and a few malformed records; a crash needs only one input among all of them, and counters are exhausted only after runs no test can perform.", "anchors": ["conn.go:307-508", "conn.go:575-643", "conn.go:839-866", "record-layer.go:265-299", "record-layer.go:337-509", "dtls.go:87-129"]}
{"id": "C81", "title": "Read over DTLS returns only what the peer wrote", "statement": "Over an established DTLS connection, if the AEAD opens only what was sealed, then whatever the network delivers and whatever both applications do, the bytes that Read returns are the contents of records the peer sent, each a contiguous piece of what one of the peer's Writes was given, in the order in which the records arrived; one arriving record is never returned twice, and once data under newer keys has been returned no data under older keys is.", "quantifier": "every content of the transport to both ends, every sequence of Reads, Writes, key updates, tickets and Closes at both ends with expiring timers, every number of key updates, both directions", "why_tests_cant": "Tests deliver what the peer sent and a few altered packets; that no delivery whatever, in no interleaving with key updates at both ends, makes Read return bytes the peer did not write concerns all of them.", "anchors": ["conn.go:307-508", "conn.go:575-643", "conn.go:839-866", "record-layer.go:265-299", "record-layer.go:337-509", "dtls.go:50-129", "handshake-layer.go:403-536"]}
{"id": "C82", "title": "Alerts, Close and tickets over an established DTLS connection", "statement": "Over an established DTLS connection, Read reports a close_notify of the peer as end of file and a fatal alert as that alert, and sends nothing. After Close, or after this end sent a fatal alert, it sends no datagram any more and every Write of non-empty data fails without writing. A session ticket the server sends makes the client's Read store, under the server's name, the same PSK the server stored, with the key RFC 8446 4.6.1 defines.", "quantifier": "every state an established connection can be in (any number of key updates, anything else still to arrive), every alert, every sequence of calls after the Close, every ticket and nonce", "why_tests_cant": "Tests close a connection once and look at one error; that nothing at all is sent after Close, by any later call with any arriving datagrams or expired timers, ranges over all continuations.", "anchors": ["conn.go:307-401", "conn.go:403-543", "conn.go:575-643", "state-machine.go:139-178", "state-machine.go:185-247", "alert.go:13-51"]}
{"id": "C83", "title": "Epochs name the keys, in order", "statement": "Whatever arrives, complete handshake or not, each end installs keys for the epochs RFC 9147 assigns and in their order: for sending and for reading first those of early data (1) if early data is sent or accepted, then the handshake keys (2), then the application keys (3), then those of key updates (4 and up, one more for each update); and each handshake message is sent in the epoch RFC 9147 has for it: hellos in 0, EndOfEarlyData in 1, the other messages up to Finished in 2, key updates in 3 or later. A client sends in epoch 1 only if configured for early data.", "quantifier": "every configuration, every sequence of messages and other events in any order, complete handshake or not, any number of key updates, both ends", "why_tests_cant": "Tests see the epochs of a few complete handshakes; that no sequence of messages, such as retries after early data, makes an end skip, repeat or go back to an epoch ranges over all executions.", "anchors": ["common.go:238-245", "client-state-machine.go:70-300", "client-state-machine.go:325-647", "client-state-machine.go:905-1087", "server-state-machine.go:471-853", "server-state-machine.go:1119-1177", "state-machine.go:113-247"]}
{"id": "C84", "title": "Write before the handshake is complete sends nothing but early data", "statement": "Until the handshake is complete Write fails without writing, except on a client that is configured for early data, has a PSK for the server's name, has sent a ClientHello offering early data, was not asked to send another one, was not refused, and whose Handshake has not failed. Such a client may write right after the call of Handshake that sent the ClientHello.", "quantifier": "every configuration, every sequence of calls of Handshake and Read with anything arriving and any step failing, both ends, blocking or not, TLS and DTLS", "why_tests_cant": "Tests write early data in one successful handshake; that no sequence of failing calls, retries or refusals leaves the connection open for writing in the wrong epoch ranges over all of them.", "anchors": ["conn.go:471-508", "conn.go:575-643", "conn.go:645-693", "conn.go:728-837", "conn.go:909-921", "client-state-machine.go:70-300", "client-state-machine.go:325-647"]}
{"id": "C85", "title": "The secrets of a connection are its own", "statement": "Two connections, each a client's or a server's, that hold a common secret (traffic secret of either direction after any number of key updates, exporter secret, resumption secret) hold it for the same purpose, after as many key updates, and had the same handshake: the same messages from ClientHello to Finished. In particular the secrets of one connection are pairwise different, and equal values of ComputeExporter mean equal label, context and handshake. Otherwise a collision of the hash function or of HMAC is found among the inputs of these connections.", "quantifier": "all pairs of completed runs of clients and servers, with any peer, any configuration, PSK or not, after HelloRetryRequest or not, any number of key updates, any label and context", "why_tests_cant": "A test compares the secrets of a few connections; that no two handshakes and no two purposes ever share an input of the key schedule is a statement about all of them.", "anchors": ["crypto.go:547-616", "client-state-machine.go:905-1087", "server-state-machine.go:471-764", "server-state-machine.go:1119-1177", "state-machine.go:113-137", "conn.go:875-890"]}
{"id": "C86", "title": "Who signed is who answered", "statement": "A client that completes a handshake without a PSK has been answered by one of the servers that use the private key of the certificate it reports: that server ran the same handshake, with the same messages from ClientHello to Certificate, the same suite, protocol, parameters and handshake secrets, and showed exactly the certificates the client reports. A server that reports certificates of its client has been talking to one of the clients that use that key, and both agree on the handshake. A signature made by a client never stands in for that of a server or the other way round, though mint gives both the same context string. Otherwise a signature was forged or a collision of the hash function or of HMAC is found.", "quantifier": "all completed runs of a client or a server; any set of runs of clients and servers, of any configurations and with any peers, in which the key is used, in both roles", "why_tests_cant": "The network and the other users of the key are the adversary's choice; a test plays a few attacks.", "anchors": ["client-state-machine.go:802-881", "client-state-machine.go:905-1087", "server-state-machine.go:471-764", "server-state-machine.go:1036-1095", "handshake-messages.go: CertificateVerifyBody.EncodeSignatureInput, Sign, Verify"]}
{"id": "C87", "title": "Handshake survives whatever arrives", "statement": "A client or server over TLS can be left alone with the network: whatever bytes and errors the transport delivers, in whatever pieces and between whatever calls of Handshake, every call returns. Nobody who can reach the port crashes the program or makes it hang, before or during authentication.", "quantifier": "all configurations with suites that mint implements (for a server: sound ones), all random choices, all sequences of calls and deliveries of any bytes and errors, with state machine, handshake layer and record layers together", "why_tests_cant": "The input is any byte stream cut in any way, interleaved with calls; a fuzzer samples it and rarely gets past the first key change.", "anchors": ["conn.go:728-837", "conn.go:575-643", "handshake-layer.go:176-229", "handshake-layer.go:349-401", "record-layer.go:265-451", "frame-reader.go:28-98", "client-state-machine.go", "server-state-machine.go"]}
{"id": "C88", "title": "Recorded early data is not accepted again", "statement": "Whoever records a client's first flight with early data and sends it again, to the same server or to another one that shares its PSKs, does not get the data accepted a second time; at the least, only within some seconds of the first time, as the age of the ticket in the hello gives the recording away.", "quantifier": "all pairs of connections to servers with the same PSKs that take early data after the same hello, whatever else they are configured with, whatever they choose and whatever follows", "why_tests_cant": "A test replays once, at one time; the claim is about all times, all configurations and arithmetic that wraps after 50 days.", "anchors": ["negotiation.go:51-116", "server-state-machine.go:90-404", "server-state-machine.go:785-853"]}
{"id": "C89", "title": "Nobody in between can make two ends settle for less than they have in common", "statement": "If a client completes a handshake with a server, then what it reports as negotiated is the best their two configurations have in common, whatever anybody in between did to the messages: the cipher suite, the key exchange group and the application protocol are the first in the client's list that the server has too, there is no protocol only if they have none in common, and a client certificate was asked for exactly if the server is configured to ask for one.", "quantifier": "all configurations of client and server, all messages each of them reads in whatever order from whatever network, all random choices, over TLS and DTLS; given only that the Finished the client read was written by the server", "why_tests_cant": "A test can tamper with some messages in some ways; a downgrade attack may change any message in any way, and whether it is noticed depends on everything negotiated being covered by the Finished message.", "anchors": ["negotiation.go:10-218", "client-state-machine.go:70-300", "client-state-machine.go:905-1087", "server-state-machine.go:90-404", "server-state-machine.go:471-764"]}
{"id": "C90", "title": "GetHsState tells how far the handshake is", "statement": "Between calls of Handshake, the state that GetHsState and ConnectionState give is the one that fits the messages read and sent so far: a client waits for the ServerHello until it has one, then for EncryptedExtensions, then for Finished if a PSK was selected and else for a CertificateRequest or Certificate, and so on, and is connected from the Finished on; a server is in its start state until it has answered a ClientHello, then waits for the end of early data it accepted, for a certificate it asked for, for its CertificateVerify unless the certificate is empty, and for Finished.", "quantifier": "every sequence of messages and records a network may deliver, every configuration, blocking and non-blocking use, every number of calls that did not fail", "why_tests_cant": "Tests look at the state after complete handshakes of a few kinds; the relation between state and messages must hold at every point of every execution, also of those no test makes.", "anchors": ["common.go:167-192", "conn.go:868-873", "conn.go:892-907", "client-state-machine.go:70-1087", "server-state-machine.go:90-1177"]}
{"id": "C91", "title": "Key agreement in the finite field groups gives both ends one secret, and nobody can choose it", "statement": "In each of the groups ffdhe2048 to ffdhe8192, two ends that make key shares and exchange them obtain the same secret, which is the generator to the product of their private keys, in as many bytes as the group has; shares have that size too and never are trivial. The primes are those of RFC 7919. A share that is not between 1 and p-1, which would fix the secret whatever the private key is, is refused.", "quantifier": "all five groups, all random numbers, all private keys, all shares of the peer", "why_tests_cant": "A secret or share with leading zero bytes turns up once in 256 random key exchanges, so that errors in padding are not seen in a few; and the numbers have thousands of bits.", "anchors": ["ffdhe.go:8-147", "crypto.go:143-182", "crypto.go:196-212", "crypto.go:227-243", "crypto.go:281-294"]}
{"id": "C92", "title": "Self-signed certificates can be used with the scheme and the name they were made for", "statement": "MakeNewSelfSignedCert, called with a signature scheme that mint can sign with and a name that is not empty, returns a private key and a certificate that is for exactly this name and holds the public key. A server that is given nothing but this certificate selects it for every client that asks for the name and offers the scheme, whatever else the client offers, signs with a scheme the client offered, and the client accepts the signature. For an empty name or any other scheme an error is returned.", "quantifier": "all names, all signature schemes, all lists of schemes of the client, all inputs to sign, all keys generated", "why_tests_cant": "A test makes certificates for some schemes and connects with clients that offer some lists; which scheme is selected depends on the order of all that is offered, and the lists are unbounded.", "anchors": ["crypto.go:106-114", "crypto.go:184-194", "crypto.go:313-329", "crypto.go:336-448", "crypto.go:618-663", "negotiation.go:137-169"]}
{"id": "C93", "title": "Looking up an identity in a pre_shared_key extension gives the binder sent for it", "statement": "HasIdentity, called on a PreSharedKeyExtension that was parsed from whatever bytes, never crashes; it reports an identity exactly if the sender put it in, and returns the binder the sender put in for it.", "quantifier": "all bytes parsed, all lists of identities and binders, all identities looked up", "why_tests_cant": "The one test looks up two identities in one fixed extension; the lists and the bytes of the peer are unbounded.", "anchors": ["extensions.go:392-440", "extensions.go:442-449"]}
{"id": "C94", "title": "Extensions of the application are carried unchanged and do not change what is negotiated", "statement": "With Config.ExtensionHandler set at both ends, the extensions the client's handler puts into a ClientHello, and those the server's puts into EncryptedExtensions, reach the other handler with the same contents and in the same order; if that handler returns an error, the handshake is aborted with internal_error. An end that does not know the type of an extension negotiates the same versions, suites, groups, keys and protocols as if it were not there, wherever it stands in the list. The same holds for a HelloRetryRequest.", "quantifier": "all handlers, all extension lists they return, all configurations, with and without PSK, TLS and DTLS, all positions and contents of unknown extensions", "why_tests_cant": "Tests use one extension with fixed contents in one configuration; handlers and lists are unbounded, and that nothing negotiated depends on an unknown extension is a statement about all of them.", "anchors": ["state-machine.go:43-46", "extensions.go:53-113", "client-state-machine.go:148-156", "client-state-machine.go:383-427", "client-state-machine.go:433-441", "client-state-machine.go:582-589", "server-state-machine.go:126-150", "server-state-machine.go:431-438", "server-state-machine.go:596-603"]}
{"id": "C95", "title": "Alerts, cipher suites and states can be told apart by their texts", "statement": "Error on two different alerts, and String on two different cipher suites or handshake states, give different texts, so that the error or the state an application logs says which one it was; a value without a name is shown with its number.", "quantifier": "all 256 alerts and states, all 65536 cipher suites", "why_tests_cant": "The tests look at three values; that no two of all values share a text, also with those that have no name, is not checked.", "anchors": ["alert.go:17-101", "common.go:61-89", "common.go:166-236"]}
{"id": "C96", "title": "Nothing is logged unless MINT_LOG asks for it", "statement": "A log line with a tag is handed to the log function exactly if some setting of MINT_LOG in the environment of the process is `*` or lists the tag between commas, and it begins with the tag in brackets. Without such a setting nothing is logged, in particular none of the secrets logged under `crypto`.", "quantifier": "all environments, all tags and formats", "why_tests_cant": "Tests try a star and one list of two tags; that no other environment turns on logging of secrets is a statement about all environments.", "anchors": ["log.go:12", "log.go:25-55"]}
