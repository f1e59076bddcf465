{"id": "C01", "title": "subbytes views equal Python slices", "statement": "subbytes(data, start, stop), built from bytes or from another subbytes with any (positive, negative, missing, out-of-range) start and stop, represents exactly the sequence data[start:stop]: its full copy, indexing (including negative indices and IndexError exactly out of range), slicing, iteration, truth value and length all agree with that slice. (The full statement is false of the code when stop precedes start: len() then raises ValueError.)", "quantifier": "all byte strings, all nestings of views, all integer start/stop/index arguments", "why_tests_cant": "the index arithmetic has several sign/clamp branches and views nest without limit; tests sample a few offsets", "anchors": [{"file": "snmp/utils.py", "symbols": ["subbytes", "subbytes.translate"]}]}
{"id": "C02", "title": "replace and split rebuild the wrapped bytes exactly", "statement": "view.replace(r) equals the wrapped bytes with only the viewed range substituted by r, whatever the length of r; view.split(i) yields two adjacent views whose contents concatenate to the view's contents and share the wrapped object.", "quantifier": "all views, all replacement strings, all split indices", "why_tests_cant": "unbounded data and offsets", "anchors": [{"file": "snmp/utils.py", "symbols": ["subbytes.replace", "subbytes.split", "subbytes.advance", "subbytes.dereference"]}]}
{"id": "C03", "title": "NumberGenerator enumerates every n-bit integer once per period, zero last", "statement": "For every n >= 1, signedness and random step, the first 2^n outputs of the generator are exactly the n-bit integers (two's-complement range if signed), each once; output number 2^n is 0 and no earlier one is; the sequence then repeats with period 2^n.", "quantifier": "all widths n, both signedness modes, all random seeds, all positions in the sequence", "why_tests_cant": "2^32 outputs times 2^31 seeds cannot be enumerated by a test", "anchors": [{"file": "snmp/utils.py", "symbols": ["NumberGenerator"]}]}
{"id": "C04", "title": "A dead weak reference keeps sorting by its last observed key", "statement": "ComparableWeakRef compares by the referent's current key while it is alive, and after it is collected by the key value seen at the most recent comparison (or at construction) before collection, for ever.", "quantifier": "all histories of key changes, comparisons and collection", "why_tests_cant": "depends on when garbage collection strikes in a history", "anchors": [{"file": "snmp/utils.py", "symbols": ["ComparableWeakRef"]}]}
{"id": "C05", "title": "BER tag round trip", "statement": "Tag.decode applied to Tag.encode(t) followed by any bytes returns t and exactly those bytes, for every class, constructed bit and tag number, including multi-byte tag numbers.", "quantifier": "all tags (unbounded numbers) and all trailing bytes", "why_tests_cant": "tag numbers and trailing data are unbounded; the boundary at 31 and at 7-bit multiples matters", "anchors": [{"file": "snmp/ber.py", "symbols": ["Tag.decode", "Tag.encode"]}]}
{"id": "C06", "title": "BER length round trip and limit", "statement": "The length field written by encode() decodes to the same length and leaves the following bytes untouched, for every length below 256^127; for larger lengths EncodeError is raised and nothing else is.", "quantifier": "all natural-number lengths", "why_tests_cant": "unbounded; short/long form boundary", "anchors": [{"file": "snmp/ber.py", "symbols": ["encode_length", "decode_length"]}]}
{"id": "C07", "title": "TLV round trip in every decode mode", "statement": "decode(encode(tag, body) + rest) returns tag, body and rest when leftovers are allowed; with rest empty it succeeds without leftovers; with a matching expected tag it returns body, with a different expected tag it raises ParseError; copy and no-copy modes return the same bytes.", "quantifier": "all tags, bodies, trailing bytes, and all option combinations", "why_tests_cant": "unbounded bodies and eight option combinations", "anchors": [{"file": "snmp/ber.py", "symbols": ["decode", "encode"]}]}
{"id": "C08", "title": "Decoding consumes a contiguous prefix and never invents bytes", "statement": "If decode succeeds on data, then data = header + body + tail where the returned body and tail are those adjacent slices, the header is at least two bytes and determines the body's length; without leftovers the tail is empty; and appending bytes to data changes nothing except that they are appended to the tail.", "quantifier": "all byte strings", "why_tests_cant": "must hold for adversarial network input of any content", "anchors": [{"file": "snmp/ber.py", "symbols": ["decode", "decode_length", "Tag.decode"]}]}
{"id": "C09", "title": "Every truncation is detected", "statement": "No proper prefix of a BER encoding produced by encode() is accepted by decode (with or without leftovers): it raises ParseError.", "quantifier": "all encodings and every cut point", "why_tests_cant": "every truncation point of every message", "anchors": [{"file": "snmp/ber.py", "symbols": ["decode"]}]}
{"id": "C10", "title": "Data-type decoders fail only with ParseError", "statement": "For every byte string whatsoever, decoding it as any SMI type, VarBind, VarBindList or PDU type either returns an object or raises ParseError; no other exception escapes and decoding always terminates.", "quantifier": "all byte strings, all data types", "why_tests_cant": "an adversary chooses the bytes; fuzzing samples only", "anchors": [{"file": "snmp/asn1.py", "symbols": ["ASN1.decode"]}, {"file": "snmp/smi.py", "symbols": ["BoundedInteger", "OctetString", "IpAddress", "OID"]}, {"file": "snmp/pdu.py", "symbols": ["VarBind.deserialize", "VarBindList.deserialize", "PDU.deserialize", "BulkPDU.deserialize"]}]}
{"id": "C11", "title": "INTEGER encodes every int in shortest two's complement", "statement": "For every Python int v, encoding then decoding an ASN.1 INTEGER gives v; the content octets are the big-endian two's-complement form of v with the least possible number of octets (at least one).", "quantifier": "all integers", "why_tests_cant": "unbounded integers, sign boundaries at every multiple of 8 bits", "anchors": [{"file": "snmp/asn1.py", "symbols": ["INTEGER.serialize", "INTEGER.deserialize", "INTEGER.bitCount"]}]}
{"id": "C12", "title": "Bounded integer types accept exactly their range, locally and from the wire", "statement": "Integer32 accepts exactly -2^31..2^31-1, Unsigned32/Gauge32/Counter32/TimeTicks exactly 0..2^32-1, Counter64 exactly 0..2^64-1, raising ValueError otherwise; decoding a wire integer yields that value if in range and ParseError otherwise; encode/decode round-trips.", "quantifier": "all integers and all wire encodings", "why_tests_cant": "unbounded integers at bit boundaries", "anchors": [{"file": "snmp/smi.py", "symbols": ["BoundedInteger.inRange", "BoundedInteger.construct", "Integer32", "Unsigned32", "Counter64"]}]}
{"id": "C13", "title": "OctetString length limit and round trip", "statement": "OctetString accepts exactly strings of at most 65535 bytes (ValueError locally, ParseError from the wire otherwise) and every accepted string round-trips, in copy and no-copy decoding, the latter preserving the position inside the enclosing message.", "quantifier": "all byte strings", "why_tests_cant": "unbounded strings", "anchors": [{"file": "snmp/smi.py", "symbols": ["OctetString"]}, {"file": "snmp/asn1.py", "symbols": ["OCTET_STRING"]}]}
{"id": "C14", "title": "OID wire round trip", "statement": "Every OID with at least two sub-identifiers decodes from its own encoding to itself. (False of the code: the first octet is built with a bitwise or, so e.g. 1.8 is sent as 1.0; the theorem characterises exactly which OIDs survive and what the others become.)", "quantifier": "all constructible OIDs", "why_tests_cant": "128 sub-identifiers of 32 bits; only some second arcs fail", "anchors": [{"file": "snmp/asn1.py", "symbols": ["OBJECT_IDENTIFIER.serialize", "OBJECT_IDENTIFIER.deserialize", "OBJECT_IDENTIFIER.serializeSubIdentifier"]}]}
{"id": "C15", "title": "Truncated OID contents are rejected", "statement": "OID content octets that end in the middle of a sub-identifier (last octet has its continuation bit set) are rejected with ParseError. (False of the code when the pending bits are all zero.)", "quantifier": "all content octet strings", "why_tests_cant": "adversarial input", "anchors": [{"file": "snmp/asn1.py", "symbols": ["OBJECT_IDENTIFIER.deserialize"]}]}
{"id": "C16", "title": "OID limits are enforced on construction and on the wire", "statement": "An OID object, however obtained (constructor, parse, extend, wire), has at most 128 sub-identifiers, each in 0..2^32-1, first at most 2 and second at most 39; any violation raises ValueError locally and ParseError from the wire.", "quantifier": "all argument lists and all wire encodings", "why_tests_cant": "unbounded inputs", "anchors": [{"file": "snmp/smi.py", "symbols": ["OID.__init__"]}, {"file": "snmp/asn1.py", "symbols": ["OBJECT_IDENTIFIER.__init__", "OBJECT_IDENTIFIER.construct", "OBJECT_IDENTIFIER.extend"]}]}
{"id": "C17", "title": "OID text round trip", "statement": "OID.parse(str(oid)) equals oid for every non-empty OID, with or without a leading dot; distinct OIDs have distinct text; text with an empty or non-numeric component is refused with ValueError. (The empty OID prints as the empty string, which parses back to it, but '.' is refused.)", "quantifier": "all OIDs; all strings", "why_tests_cant": "unbounded strings", "anchors": [{"file": "snmp/asn1.py", "symbols": ["OBJECT_IDENTIFIER.parse", "OBJECT_IDENTIFIER.__str__"]}]}
{"id": "C18", "title": "Table index round trip", "statement": "prefix.withIndex(x1..xk) decoded by decodeIndex(prefix, types of x1..xk) gives back x1..xk, with or without an implied last field. (False of the code for IpAddress, whose encoder omits the length its decoder expects.)", "quantifier": "all prefixes, all index tuples of all primitive types and lengths", "why_tests_cant": "arbitrary tuples of arbitrary length strings", "anchors": [{"file": "snmp/asn1.py", "symbols": ["OBJECT_IDENTIFIER.withIndex", "OBJECT_IDENTIFIER.decodeIndex", "OCTET_STRING.fromOID", "OBJECT_IDENTIFIER.fromOID", "INTEGER.fromOID"]}, {"file": "snmp/smi.py", "symbols": ["IpAddress.asOID"]}]}
{"id": "C19", "title": "decodeIndex fails only as documented", "statement": "For every OID, prefix and type list, decodeIndex returns one object per type or raises BadPrefix (exactly when the prefix does not match) or IndexDecodeError. (False of the code: a short nested OID gives RuntimeError and an octet above 255 gives ValueError.)", "quantifier": "all OIDs, prefixes, type lists", "why_tests_cant": "unbounded inputs; failure depends on agent-supplied OIDs", "anchors": [{"file": "snmp/asn1.py", "symbols": ["OBJECT_IDENTIFIER.decodeIndex", "OBJECT_IDENTIFIER.decodeIndexField", "OCTET_STRING.fromOID", "OBJECT_IDENTIFIER.fromOID"]}]}
{"id": "C20", "title": "Variable bindings round trip with their type", "statement": "Every VarBind (any OID name that survives encoding, any SMI or exception value) decodes from its encoding to an equal VarBind: same name, same ASN.1 type, same value; a value tag outside the SMI set is refused with ParseError.", "quantifier": "all VarBinds", "why_tests_cant": "thirteen value types times unbounded contents", "anchors": [{"file": "snmp/pdu.py", "symbols": ["VarBind", "VarBind.TYPES"]}]}
{"id": "C21", "title": "PDU round trip", "statement": "Every PDU and BulkPDU whose fields are in range decodes from its encoding to an equal PDU of the same class, with the variable bindings in order; variable-binding lists of any length round-trip.", "quantifier": "all PDU classes, field values, binding lists of any length", "why_tests_cant": "unbounded lists", "anchors": [{"file": "snmp/pdu.py", "symbols": ["PDU", "BulkPDU", "VarBindList"]}]}
{"id": "C22", "title": "Decoded PDU fields are validated", "statement": "A PDU obtained from the wire has an errorStatus in the enumeration and an errorIndex between 0 and the number of variable bindings; a BulkPDU has non-negative nonRepeaters and maxRepetitions; violations raise ParseError. (False of the code for negative errorIndex with noError: operator precedence lets it through.)", "quantifier": "all byte strings", "why_tests_cant": "adversarial input; precedence bug invisible to ordinary tests", "anchors": [{"file": "snmp/pdu.py", "symbols": ["PDU.deserialize", "BulkPDU.deserialize"]}]}
{"id": "C23", "title": "ErrorResponse points at the offending binding", "statement": "ErrorResponse.cause is the request itself for index 0, the index-th binding of the request for 1..n, and the bare index for larger indices; every error response from the wire has a non-negative index. (A locally built negative index picks a binding from the end.)", "quantifier": "all requests and indices", "why_tests_cant": "unbounded", "anchors": [{"file": "snmp/pdu.py", "symbols": ["ErrorResponse"]}]}
{"id": "C24", "title": "Community message round trip", "statement": "Every v1/v2c Message (community up to 65535 bytes, PDU of an enabled class) decodes from its encoding to the same version, community and PDU; a message that declares a version number other than those of v1 and v2c, or whose PDU tag is not an enabled class, is refused.", "quantifier": "all messages", "why_tests_cant": "unbounded contents", "anchors": [{"file": "snmp/message/core.py", "symbols": ["Message"]}, {"file": "snmp/message/v1.py", "symbols": ["pduTypes"]}, {"file": "snmp/message/v2c.py", "symbols": ["pduTypes"]}]}
{"id": "C25", "title": "Message decoders fail only with IncomingMessageError", "statement": "For every byte string, decoding it as a v1, v2c or v3 message, as a version-only message, or as USM security parameters returns an object or raises an IncomingMessageError subclass.", "quantifier": "all byte strings", "why_tests_cant": "adversarial network input", "anchors": [{"file": "snmp/message/core.py", "symbols": ["Message.deserialize"]}, {"file": "snmp/message/v3.py", "symbols": ["SNMPv3Message.deserialize", "HeaderData.deserialize", "MessageFlags.construct", "ScopedPDU.deserialize"]}, {"file": "snmp/message/version.py", "symbols": ["VersionOnlyMessage"]}, {"file": "snmp/security/usm/parameters.py", "symbols": ["UsmSecurityParameters.deserialize"]}]}
{"id": "C26", "title": "SNMPv3 message round trip", "statement": "Every SNMPv3 message (header, flags, security parameters, plaintext or encrypted scoped PDU) decodes from its encoding to the same header, flags, security parameters and payload; the decoded security parameters know their exact position in the whole message.", "quantifier": "all v3 messages", "why_tests_cant": "unbounded nested contents", "anchors": [{"file": "snmp/message/v3.py", "symbols": ["SNMPv3Message", "HeaderData", "MessageFlags", "ScopedPDU"]}]}
{"id": "C27", "title": "SNMPv3 header validation", "statement": "A v3 message obtained from the wire has msgID >= 0, msgMaxSize >= 484, a supported security model and never the priv flag without the auth flag; each violation is refused.", "quantifier": "all byte strings", "why_tests_cant": "adversarial input", "anchors": [{"file": "snmp/message/v3.py", "symbols": ["HeaderData.deserialize", "MessageFlags.construct"]}]}
{"id": "C28", "title": "Request IDs are unique and non-zero", "statement": "For v1/v2c, every allocated request ID is non-zero, fits in a signed 32-bit integer and differs from every other outstanding ID, for any interleaving of allocations and releases by any threads and any random seeds; allocation fails only by CacheError after ten unlucky draws.", "quantifier": "all operation histories, all seeds", "why_tests_cant": "interleavings and seeds are unbounded", "anchors": [{"file": "snmp/message/v1.py", "symbols": ["SNMPv1MessageProcessor.cache", "SNMPv1MessageProcessor.uncache"]}, {"file": "snmp/message/v2c.py", "symbols": ["SNMPv2cMessageProcessor.cache"]}]}
{"id": "C29", "title": "A community response reaches only the request it answers", "statement": "An incoming v1/v2c message is handed to a request handle only if it is a ResponsePDU whose request ID is outstanding for that live handle and whose community equals the one the request was sent with; everything else is refused and leaves other requests outstanding.", "quantifier": "all incoming messages in all processor states reachable by any history", "why_tests_cant": "needs every history of requests, releases and arrivals", "anchors": [{"file": "snmp/message/v1.py", "symbols": ["SNMPv1MessageProcessor.prepareDataElements"]}, {"file": "snmp/message/v2c.py", "symbols": ["SNMPv2cMessageProcessor.prepareDataElements"]}]}
{"id": "C30", "title": "A closed request no longer matches and retransmissions keep their ID", "statement": "After a request handle is closed (or collected and a late response seen) its ID is no longer outstanding and later responses to it are refused, while other outstanding requests are unaffected; resending the same PDU keeps the same ID and allocates nothing.", "quantifier": "all histories", "why_tests_cant": "history-dependent", "anchors": [{"file": "snmp/message/v1.py", "symbols": ["SNMPv1MessageProcessor.prepareOutgoingMessage", "SNMPv1MessageProcessor.uncache"]}, {"file": "snmp/manager/v1.py", "symbols": ["Request.close"]}]}
{"id": "C31", "title": "SNMPv3 message IDs are unique, positive and 31-bit", "statement": "Every message ID allocated for a confirmed v3 request lies in 1..2^31-1 and differs from every other outstanding one, for any history and any seeds.", "quantifier": "all histories and seeds", "why_tests_cant": "interleavings and seeds are unbounded", "anchors": [{"file": "snmp/message/v3.py", "symbols": ["SNMPv3MessageProcessor.cache", "SNMPv3MessageProcessor.newGenerator"]}]}
{"id": "C32", "title": "SNMPv3 response matching", "statement": "A v3 message is handed to a request handle exactly when it is a Response or Report whose msgID is outstanding for a live handle, with equal security name and context name, and - unless it is a Report - a security level not below the request's and security engine ID and context engine ID equal to the request's.", "quantifier": "all incoming messages in all reachable processor states", "why_tests_cant": "combinatorial decision over unbounded fields and histories", "anchors": [{"file": "snmp/message/v3.py", "symbols": ["SNMPv3MessageProcessor.prepareDataElements"]}]}
{"id": "C33", "title": "An SNMPv3 request never completes with less security than it asked for", "statement": "The bindings returned for a request sent at security level L come from a message received at level >= L. (False of the code: the unauthenticated discovery message of a request stays outstanding, and a forged unauthenticated response to it completes the authenticated request.)", "quantifier": "all requests, all histories of network input", "why_tests_cant": "attack needs a particular interleaving of report and forged response", "anchors": [{"file": "snmp/manager/v3.py", "symbols": ["Request.processResponse", "SNMPv3UsmManager.processResponse", "TrustEveryResponse.onResponse"]}, {"file": "snmp/message/v3.py", "symbols": ["SNMPv3MessageProcessor.prepareDataElements"]}]}
{"id": "C34", "title": "Security levels are totally ordered and round-trip through flags", "statement": "noAuthNoPriv < authNoPriv < authPriv is a strict total order under <, >=; privacy without authentication cannot be constructed; the flag octet encodes level and reportable bit injectively and decoding ignores other bits.", "quantifier": "all levels, all flag octets", "why_tests_cant": "pairwise laws must hold for all triples", "anchors": [{"file": "snmp/security/levels.py", "symbols": ["SecurityLevel"]}, {"file": "snmp/message/v3.py", "symbols": ["MessageFlags"]}]}
{"id": "C35", "title": "Time-window rule", "statement": "An authenticated message with (boots, time) is accepted iff boots < 2^31-1 and, against the local estimate (B, T) of that engine, boots > B or (boots = B and T - time <= 150); the first authenticated message from an engine is accepted iff boots < 2^31-1.", "quantifier": "all estimates, message times and timestamps", "why_tests_cant": "unbounded real-valued timestamps and boundary at 150", "anchors": [{"file": "snmp/security/usm/timekeeper.py", "symbols": ["TimeKeeper.updateAndVerify", "EngineTime.update"]}]}
{"id": "C36", "title": "Authenticated engine time never moves back and ignores hints", "statement": "Over any history, once an engine has been authenticated, its boots estimate never decreases, within the same boots its projected time never decreases, unauthenticated hints never change it, and messages about one engine never change another engine's estimate.", "quantifier": "all histories of hints and authenticated updates over any number of engines", "why_tests_cant": "history property", "anchors": [{"file": "snmp/security/usm/timekeeper.py", "symbols": ["EngineTime.hint", "EngineTime.update", "TimeKeeper"]}]}
{"id": "C37", "title": "Unauthenticated input cannot prevent sending an authenticated request", "statement": "After any history of unauthenticated messages, a correctly configured authenticated request to a registered engine can still be produced. (False of the code: an unauthenticated message can plant an engine time near 2^31 or negative boots, after which building the request raises.)", "quantifier": "all histories of unauthenticated input", "why_tests_cant": "needs adversarial history", "anchors": [{"file": "snmp/security/usm/implementation.py", "symbols": ["UserBasedSecurityModule.prepareOutgoing", "UserBasedSecurityModule.processIncoming"]}, {"file": "snmp/security/usm/timekeeper.py", "symbols": ["TimeKeeper.hint"]}]}
{"id": "C38", "title": "Credential lookup is the localisation of the configured user", "statement": "After any history of addUser, registerRemoteEngine and unregisterRemoteEngine, looking up (engineID, user) returns the credentials configured for that user in the namespace the engine is registered under, localised to that engine ID; it fails with InvalidEngineID iff the engine is not registered and InvalidUserName iff the user is not configured in that namespace.", "quantifier": "all operation histories", "why_tests_cant": "order of user and engine registration is arbitrary", "anchors": [{"file": "snmp/security/usm/users.py", "symbols": ["UserRegistry", "RemoteEngine", "NamespaceConfig"]}]}
{"id": "C39", "title": "An engine ID belongs to one namespace while referenced", "statement": "registerRemoteEngine succeeds iff the engine is unregistered or registered under the same namespace; it stays registered until released under that namespace as many times as it was registered; refused registrations and releases under another namespace change nothing.", "quantifier": "all histories", "why_tests_cant": "reference counting over unbounded histories", "anchors": [{"file": "snmp/security/usm/users.py", "symbols": ["UserRegistry.assign", "UserRegistry.release", "RemoteEngine.assign", "RemoteEngine.release"]}]}
{"id": "C40", "title": "Users cannot be silently redefined; default user rules", "statement": "Adding a user whose name exists in the namespace with a different configuration, or asking to make an existing non-default user default, raises UserNameCollision and changes no user; re-adding an identical one is a no-op; the namespace default user is the first added unless a later addition says default.", "quantifier": "all histories", "why_tests_cant": "history property", "anchors": [{"file": "snmp/security/usm/users.py", "symbols": ["NamespaceConfig.addUser", "UserRegistry.addUser", "UserRegistry.getDefaultUser"]}]}
{"id": "C41", "title": "Default security level never exceeds what credentials support", "statement": "For every configured user the default security level is at most the level its credentials support, equals that level unless overridden, and an unsupported override raises ValueError without adding the user.", "quantifier": "all configurations and histories", "why_tests_cant": "history property", "anchors": [{"file": "snmp/security/usm/users.py", "symbols": ["UserConfig", "UserRegistry.getDefaultSecurityLevel"]}, {"file": "snmp/security/usm/credentials.py", "symbols": ["Credentials"]}]}
{"id": "C42", "title": "Password-to-key stretches to exactly one mebibyte", "statement": "The key for a non-empty secret is the hash of exactly 2^20 bytes, the i-th of which is secret[i mod len(secret)]; localisation hashes key, engine ID, key; an empty secret raises ZeroDivisionError.", "quantifier": "all secrets and engine IDs", "why_tests_cant": "secret length interacts with the 2^20 remainder", "anchors": [{"file": "snmp/security/usm/auth.py", "symbols": ["HmacAuthProtocol.computeKey", "HmacAuthProtocol.localizeKey"]}, {"file": "snmp/security/usm/credentials.py", "symbols": ["Credentials.localize"]}]}
{"id": "C43", "title": "Authenticated input is accepted only with the right MAC", "statement": "If an incoming message with the auth flag passes the security module, then the engine and user were registered, the user has an auth key, the signature field has the protocol's length and equals the MAC, under the user's localised key, of the whole received message with that field zeroed; and if the priv flag is set the user has a privacy key.", "quantifier": "all incoming byte strings in all module states", "why_tests_cant": "adversarial bytes", "anchors": [{"file": "snmp/security/usm/implementation.py", "symbols": ["UserBasedSecurityModule.processIncoming"]}, {"file": "snmp/security/usm/parameters.py", "symbols": ["UsmSecurityParameters"]}]}
{"id": "C44", "title": "Outgoing authentication: only the signature field is rewritten, and a peer verifies it", "statement": "An outgoing authenticated message is the plain encoding with exactly the signature field replaced by the MAC of the encoding with that field zeroed; a peer holding the same credentials decodes it to the same contents and the MAC check succeeds.", "quantifier": "all messages, users, keys, MAC functions of the right output length", "why_tests_cant": "byte offsets depend on all nested lengths", "anchors": [{"file": "snmp/security/usm/implementation.py", "symbols": ["UserBasedSecurityModule.prepareOutgoing"]}, {"file": "snmp/security/usm/parameters.py", "symbols": ["UsmSecurityParameters.findSignature"]}, {"file": "snmp/message/v3.py", "symbols": ["SNMPv3Message.findSecurityParameters"]}, {"file": "snmp/utils.py", "symbols": ["subbytes.replace"]}]}
{"id": "C45", "title": "Privacy round trip", "statement": "A scoped PDU encrypted for a user and decrypted by a peer with the same key, boots, time and transmitted salt yields the same scoped PDU, for AES and DES and for both cryptographic back ends, despite the padding each leaves behind.", "quantifier": "all scoped PDUs, keys, boots, times, salts; all ciphers satisfying the stated contract", "why_tests_cant": "padding depends on length; four implementation combinations", "anchors": [{"file": "snmp/security/usm/priv/openssl/aes.py", "symbols": ["AesCfb128"]}, {"file": "snmp/security/usm/priv/openssl/des.py", "symbols": ["DesCbc"]}, {"file": "snmp/security/usm/priv/pycryptodome/aes.py", "symbols": ["AesCfb128"]}, {"file": "snmp/security/usm/priv/pycryptodome/des.py", "symbols": ["DesCbc"]}, {"file": "snmp/message/v3.py", "symbols": ["SNMPv3Message.plaintext"]}]}
{"id": "C46", "title": "Salts and IVs do not repeat", "statement": "With one key object, the salts of any 2^64 consecutive AES encryptions (2^32 for DES at the same boots) are pairwise distinct, hence so are the IVs.", "quantifier": "all histories of encryptions, all random initial salts", "why_tests_cant": "2^64 calls", "anchors": [{"file": "snmp/security/usm/priv/openssl/aes.py", "symbols": ["AesCfb128.encrypt", "AesCfb128.packIV"]}, {"file": "snmp/security/usm/priv/openssl/des.py", "symbols": ["DesCbc.encrypt", "DesCbc.computeIV"]}]}
{"id": "C47", "title": "The cipher is only ever given a full-length IV", "statement": "Every IV handed to the cipher is exactly one block (16 bytes AES, 8 bytes DES); a wrong-length salt is refused with DecryptionError. (False of the code for DES: a short salt produces a short IV, which the OpenSSL back end passes to C as is.)", "quantifier": "all incoming salts", "why_tests_cant": "adversarial field length", "anchors": [{"file": "snmp/security/usm/priv/openssl/des.py", "symbols": ["DesCbc.computeIV", "DesCbc.decrypt"]}, {"file": "snmp/security/usm/priv/openssl/aes.py", "symbols": ["AesCfb128.packIV"]}]}
{"id": "C48", "title": "Retransmission schedule (v1, v2c)", "statement": "A pending request of a v1 or v2c manager is resent only when its refresh time has come, never at or after its expiration and never once answered; after a resend the next refresh time is at least now, less than one period ahead, on the original period grid, and never later than the expiration.", "quantifier": "all real-valued clocks, periods, timeouts and delays", "why_tests_cant": "continuous time", "anchors": [{"file": "snmp/manager/v1.py", "symbols": ["Request.refresh", "Request.send"]}, {"file": "snmp/manager/v2c.py", "symbols": ["Request.refresh"]}]}
{"id": "C49", "title": "wait() reports the outcome faithfully (v1, v2c)", "statement": "wait() of a v1 or v2c handle returns bindings or raises ErrorResponse only from a response delivered to that request, raises Timeout only when the expiration has passed, and always yields the response if one was delivered before wait() finished. (The last part is false: a handle waited on after its expiration raises Timeout although the response is there.)", "quantifier": "all schedules of clock readings and response arrivals", "why_tests_cant": "depends on interleaving of clock and arrivals", "anchors": [{"file": "snmp/manager/v1.py", "symbols": ["Request.wait"]}, {"file": "snmp/manager/v2c.py", "symbols": ["Request.wait"]}]}
{"id": "C50", "title": "wait() never sleeps past its deadline (v1, v2c)", "statement": "Every sleep inside wait() of a v1 or v2c handle has a finite timeout that ends no later than the expiration of a pending request of the same manager, whatever other managers of the engine do. (False: if the request expires between the loop test and the refresh, the sleep has no timeout and wait() blocks for ever.)", "quantifier": "all schedules", "why_tests_cant": "race between two clock readings", "anchors": [{"file": "snmp/manager/v1.py", "symbols": ["Request.wait", "SNMPv1Manager.refresh"]}]}
{"id": "C51", "title": "The request due first is serviced first (v1, v2c)", "statement": "refresh() of a v1 or v2c manager always examines the pending request with the smallest refresh time. (False: the request is inserted in the heap before its refresh time is set, so a later request with a shorter period can be starved.)", "quantifier": "all histories of requests, refreshes and reports, of any number of managers of one engine", "why_tests_cant": "heap order depends on history", "anchors": [{"file": "snmp/manager/v1.py", "symbols": ["SNMPv1Manager.sendRequest", "SNMPv1Manager.refresh"]}]}
{"id": "C52", "title": "Once authenticated, the SNMPv3 manager's engine ID changes only by authenticated responses", "statement": "From the moment a manager has processed an authenticated response, its engine ID changes only when an authenticated response carries a different one, and the manager never falls back to trusting unauthenticated responses or to discovery.", "quantifier": "all histories of requests, responses, reports and idle periods", "why_tests_cant": "state machine over unbounded histories", "anchors": [{"file": "snmp/manager/v3.py", "symbols": ["RequireAuthentication", "TrustEveryResponse", "Synchronizing", "SNMPv3UsmManager.processResponse"]}]}
{"id": "C53", "title": "Engine registrations are released", "statement": "Over any history the registrations a v3 manager and its requests hold in the user registry equal the engine IDs they currently name, so when all requests are closed and the manager dropped no registration remains; a refused registration changes nothing.", "quantifier": "all histories", "why_tests_cant": "reference counts over unbounded histories", "anchors": [{"file": "snmp/manager/v3.py", "symbols": ["Request.engineID", "SNMPv3UsmManager.engineID", "Request.close"]}]}
{"id": "C54", "title": "No pending SNMPv3 request is forgotten", "statement": "Every request issued to a v3 manager stays either scheduled for retransmission or queued for sending until it is answered, fails, expires or is dropped by the caller, and is never in both or twice; queued requests are sent in order of issue when discovery completes.", "quantifier": "all histories", "why_tests_cant": "queue manipulations over unbounded histories", "anchors": [{"file": "snmp/manager/v3.py", "symbols": ["SNMPv3UsmManager.poke", "SNMPv3UsmManager.refresh", "SNMPv3UsmManager.onReport", "SNMPv3UsmManager.sendRequest"]}]}
{"id": "C55", "title": "Time-synchronisation reports cannot cause a resend storm", "statement": "However many notInTimeWindow reports arrive, each message sent by a request triggers at most one immediate resend, and a resend so triggered never triggers another.", "quantifier": "all sequences of reports", "why_tests_cant": "unbounded adversarial sequences", "anchors": [{"file": "snmp/manager/v3.py", "symbols": ["RequestMessage.push", "Request.processNotInTimeWindow", "SharedBool"]}]}
{"id": "C56", "title": "Unauthenticated error reports do not end a request early", "statement": "A usmStats error report received without authentication never completes the request: wait() keeps waiting for a response until expiration and only then raises the reported error instead of Timeout; an authenticated one completes it at once unless it is already complete.", "quantifier": "all sequences of reports and responses", "why_tests_cant": "adversarial ordering", "anchors": [{"file": "snmp/manager/v3.py", "symbols": ["Request.processException", "RequestMessage.push", "Request.wait"]}]}
{"id": "C57", "title": "The dispatcher survives and routes every datagram", "statement": "For every datagram, hear() returns normally; the datagram reaches only the message processor registered for the version it declares, and a request handle is touched only if that processor returned it.", "quantifier": "all datagrams, all processors", "why_tests_cant": "adversarial input", "anchors": [{"file": "snmp/dispatcher.py", "symbols": ["Dispatcher.hear"]}]}
{"id": "C58", "title": "Responses are accepted only from the queried address", "statement": "A response completes a request only if it arrived from the address the request was sent to. (False of the code: the source address is never examined.)", "quantifier": "all datagrams and addresses", "why_tests_cant": "negative property about ignored input", "anchors": [{"file": "snmp/dispatcher.py", "symbols": ["Dispatcher.hear"]}, {"file": "snmp/transport/__init__.py", "symbols": ["TransportChannel"]}]}
{"id": "C59", "title": "Address normalisation", "statement": "normalizeAddress returns an address whose host is valid for the family and whose port is in 0..65535 and non-zero for listener usages, keeps explicit tuples unchanged, fills defaults by usage, is idempotent, and raises ValueError for any other string or pair, TypeError for a host that is not a string. An empty host means the wildcard address, except for listener usages.", "quantifier": "all addresses and usages, any inet_pton", "why_tests_cant": "unbounded strings and ports", "anchors": [{"file": "snmp/transport/udp.py", "symbols": ["UdpSocket.normalizeAddress"]}]}
{"id": "C60", "title": "The receive loop delivers every datagram once and stops only when told", "statement": "The multiplexor's listen loop hands each datagram read from a registered socket to the listener exactly once in order, and ends exactly after the round in which the stop signal is seen; with the generic multiplexor a stop datagram from any other socket is ignored. (False of the code for a read that raises: the loop ends, and the datagrams that are ready are lost.)", "quantifier": "all sequences of poll results", "why_tests_cant": "unbounded event sequences", "anchors": [{"file": "snmp/transport/posix/udp.py", "symbols": ["PosixUdpMultiplexor.listen"]}, {"file": "snmp/transport/generic/udp.py", "symbols": ["GenericUdpMultiplexor.listen"]}]}
{"id": "C61", "title": "One socket per local address; managers get the requested version and defaults", "statement": "Over any history of Engine.Manager calls there is exactly one transport per (domain, local address), reused by later calls; the manager returned is of the requested version (default otherwise), uses the requested or default community / user / level, and its processor is registered with the dispatcher exactly once.", "quantifier": "all histories of Manager calls", "why_tests_cant": "history property", "anchors": [{"file": "snmp/engine.py", "symbols": ["Engine.Manager", "Engine.v1Manager", "Engine.v2cManager", "Engine.v3Manager", "Engine.connectTransport"]}]}
{"id": "C62", "title": "Salts stay distinct when several threads encrypt with one key", "statement": "If several threads send with the same user at the same time, the salts of their messages are pairwise distinct. (False of the code: the increment of the salt and its later read are separate steps outside any lock, so two threads can use the same salt and IV.)", "quantifier": "all interleavings of any number of encrypting threads", "why_tests_cant": "needs a particular schedule", "anchors": [{"file": "snmp/security/usm/priv/openssl/aes.py", "symbols": ["AesCfb128.encrypt"]}, {"file": "snmp/security/usm/priv/openssl/des.py", "symbols": ["DesCbc.encrypt"]}, {"file": "snmp/security/usm/implementation.py", "symbols": ["UserBasedSecurityModule.prepareOutgoing"]}]}
{"id": "C63", "title": "Retransmissions are identical", "statement": "All datagrams a v1 or v2c manager sends for one request are byte-for-byte identical, and are the encoding of the request's PDU with its assigned non-zero ID under the request's community and the manager's version.", "quantifier": "all histories of requests, retransmissions, responses and failures", "why_tests_cant": "unbounded histories", "anchors": [{"file": "snmp/manager/v1.py", "symbols": ["Request", "SNMPv1Manager.refresh"]}, {"file": "snmp/manager/v2c.py", "symbols": ["Request", "SNMPv2cManager.refresh"]}]}
{"id": "C64", "title": "Handles of one manager can be waited on from several threads (v1, v2c)", "statement": "However many threads wait on handles of one v1 or v2c manager, wait() ends only with bindings, ErrorResponse or Timeout, or with an exception of the transport; never with an internal error. (False: `while self.requests` is tested outside the lock, so wait() can raise IndexError.)", "quantifier": "all interleavings of any number of threads and managers", "why_tests_cant": "depends on thread interleaving", "anchors": [{"file": "snmp/manager/v1.py", "symbols": ["Request", "SNMPv1Manager.refresh"]}, {"file": "snmp/manager/v2c.py", "symbols": ["Request", "SNMPv2cManager.refresh"]}]}
{"id": "C65", "title": "wait() can be called again (v1, v2c)", "statement": "A second wait() on a v1 or v2c handle gives the same outcome as the first. (False: it raises AssertionError.)", "quantifier": "all histories", "why_tests_cant": "depends on history", "anchors": [{"file": "snmp/manager/v1.py", "symbols": ["Request", "SNMPv1Manager.refresh"]}, {"file": "snmp/manager/v2c.py", "symbols": ["Request", "SNMPv2cManager.refresh"]}]}
{"id": "C66", "title": "A PDU can be sent again (v1, v2c)", "statement": "sendRequest with a PDU object that was sent before behaves like the first time: its response is matched, or wait() raises Timeout. (False of v1/v2c: the response is not matched and wait() raises AssertionError.)", "quantifier": "all PDUs and histories", "why_tests_cant": "depends on history", "anchors": [{"file": "snmp/manager/v1.py", "symbols": ["Request", "SNMPv1Manager.refresh"]}, {"file": "snmp/manager/v2c.py", "symbols": ["Request", "SNMPv2cManager.refresh"]}]}
{"id": "C67", "title": "Retransmission schedule (v3)", "statement": "A v3 request is resent by wait() only when its refresh time has come, never at or after its expiration and never once answered; after such a resend the next refresh time is at least now, less than one period ahead, on the period grid of the previous one, and never later than the expiration; after any other send it is one period ahead, and never later than the expiration. No request is sent at or after its expiration or once answered. (The last sentence is false of the code: a late report, or discovery completing late, still triggers a send.)", "quantifier": "all clocks, periods, timeouts, delays, histories of threads, reports and failures", "why_tests_cant": "continuous time and any interleaving", "anchors": [{"file": "snmp/manager/v3.py", "symbols": ["Request.refresh", "Request.send", "SNMPv3UsmManager.onReport", "SNMPv3UsmManager.poke"]}]}
{"id": "C68", "title": "wait() reports the outcome faithfully (v3)", "statement": "wait() of a v3 handle returns bindings or raises ErrorResponse only from a response delivered to that request, raises Timeout only after it found the expiration passed, raises a reported error only if that report was delivered to it, and otherwise only an exception raised by a send. A delivered response completes the request.", "quantifier": "all schedules of clock readings, threads and arrivals", "why_tests_cant": "depends on interleaving of clock and arrivals", "anchors": [{"file": "snmp/manager/v3.py", "symbols": ["Request.wait", "Request.processResponse", "Request.processException"]}]}
{"id": "C69", "title": "wait() never sleeps past a deadline (v3)", "statement": "Every sleep inside wait() of a v3 handle is finite and ends no later than the expiration of a pending unanswered request.", "quantifier": "all schedules", "why_tests_cant": "race between clock readings", "anchors": [{"file": "snmp/manager/v3.py", "symbols": ["Request.wait", "SNMPv3UsmManager.refresh"]}]}
{"id": "C70", "title": "The request due first is serviced first (v3)", "statement": "refresh() of a v3 manager always examines a request whose refresh time is smallest among the live requests scheduled for retransmission. (False of the code after a send that raised an exception.)", "quantifier": "all histories of requests, refreshes, reports, collections", "why_tests_cant": "heap order depends on history", "anchors": [{"file": "snmp/manager/v3.py", "symbols": ["SNMPv3UsmManager.sendRequest", "SNMPv3UsmManager.refresh", "SNMPv3UsmManager.onReport", "SNMPv3UsmManager.poke"]}]}
{"id": "C71", "title": "Handles of one v3 manager can be waited on from several threads", "statement": "However many threads wait on handles of one v3 manager, wait() ends only with bindings, ErrorResponse, a reported error or Timeout, or with an exception raised by sending (the transport's, no free message ID, refused by the security module, refreshPeriod 0); never with an internal error such as IndexError or SNMPLibraryBug.", "quantifier": "all interleavings of any number of threads", "why_tests_cant": "depends on thread interleaving", "anchors": [{"file": "snmp/manager/v3.py", "symbols": ["Request.wait", "SNMPv3UsmManager.refresh", "SNMPv3UsmManager.poke"]}]}
{"id": "C72", "title": "wait() can be called again (v3)", "statement": "A second wait() on a v3 handle gives the same outcome as the first. (False of the code: Timeout, then bindings when the response arrives between.)", "quantifier": "all histories", "why_tests_cant": "depends on history", "anchors": [{"file": "snmp/manager/v3.py", "symbols": ["Request.wait"]}]}
{"id": "C73", "title": "One listening thread watches every connected transport", "statement": "Whenever no call of connectTransport or shutdown is in progress, an open dispatcher with at least one transport has exactly one listening thread, in its loop, which watches every transport connected so far; connecting another transport replaces the thread by one that watches it too. (False of the code after a read has raised: the thread is gone, and the next one ends with its first round.)", "quantifier": "all histories of connectTransport, shutdown and poll results", "why_tests_cant": "thread and history property", "anchors": [{"file": "snmp/dispatcher.py", "symbols": ["Dispatcher.connectTransport", "Dispatcher.shutdown"]}, {"file": "snmp/transport/posix/udp.py", "symbols": ["PosixUdpMultiplexor"]}]}
{"id": "C74", "title": "Shutdown stops the thread, and can be repeated", "statement": "shutdown stops the listening thread and closes everything, and calling it again (for example when leaving the with block) does nothing. (The second half is false of the code: OSError.)", "quantifier": "all histories", "why_tests_cant": "history property", "anchors": [{"file": "snmp/dispatcher.py", "symbols": ["Dispatcher.shutdown"]}, {"file": "snmp/engine.py", "symbols": ["Engine.shutdown", "Engine.__exit__"]}]}
{"id": "C75", "title": "A transport given to the engine is the one its managers use", "statement": "After connectTransport(t), managers for the domain of t use t, and a second transport for that domain is refused with ValueError. (The first half is false of the code: Manager opens another socket.)", "quantifier": "all histories of Engine calls", "why_tests_cant": "history property", "anchors": [{"file": "snmp/engine.py", "symbols": ["Engine.connectTransport", "Engine.Manager"]}]}
{"id": "C76", "title": "An SNMPv3 manager without a user raises NoDefaultUser", "statement": "If no user has been added to the namespace and none is named, Manager for SNMPv3 raises NoDefaultUser. (False of the code: with a namespace that was never mentioned it raises ValueError.)", "quantifier": "all histories of Engine calls", "why_tests_cant": "history property", "anchors": [{"file": "snmp/engine.py", "symbols": ["Engine.v3Manager", "NoDefaultUser"]}, {"file": "snmp/security/usm/users.py", "symbols": ["UserRegistry.getDefaultUser"]}]}
{"id": "C77", "title": "Unusable arguments of Manager are refused with ValueError and leave nothing behind", "statement": "An unsupported domain, an address that is not valid for the domain, and an unknown version are refused with ValueError (TypeError for a host that is not a string), and the engine is as before. (False of the code: an unsupported domain raises UnboundLocalError, and an unknown version leaves a socket open.)", "quantifier": "all engines and arguments", "why_tests_cant": "unbounded arguments and states", "anchors": [{"file": "snmp/engine.py", "symbols": ["Engine.Manager"]}]}
{"id": "C78", "title": "An SNMPv3 message carries what was asked for", "statement": "The bytes produced for a PDU by the SNMPv3 message processor and the user-based security module decode to a message with exactly the requested security level, security model, maximum message size, engine ID and user name; the reportable flag is set exactly for PDUs of the confirmed class; without privacy the PDU, context engine ID and context name are readable and equal to what was given, with privacy no PDU is readable; without authentication boots and time are 0 and signature and salt are empty, with authentication boots and time are the current estimate.", "quantifier": "every PDU, engine ID, user name, level, context, generator age, security module state and time", "why_tests_cant": "PDUs, names and module states are unbounded; tests look at a few fixed messages", "anchors": [{"file": "snmp/message/v3.py", "symbols": ["SNMPv3MessageProcessor.prepareOutgoingMessage"]}, {"file": "snmp/security/usm/implementation.py", "symbols": ["UserBasedSecurityModule.prepareOutgoing"]}]}
{"id": "C79", "title": "What a v3 manager puts on the wire", "statement": "Every datagram an SNMPv3 manager hands to the channel on behalf of a request is either a discovery message (empty get request, no engine, no user, no security), which reveals nothing of the request; or names the request's user, carries exactly the request's security level and PDU, and, if the level asks for it, is signed and encrypted with the keys configured by addUser for that user in the manager's namespace, localised to the engine it names. No request with privacy ever leaves in the clear, none with authentication leaves unsigned.", "quantifier": "all histories: requests at any level, datagrams received (forged or not), timers, thread interleavings, failing sends, users added meanwhile", "why_tests_cant": "a downgrade happens only in some interleaving of reports, retransmissions and queue flushing; tests see a few of them", "anchors": [{"file": "snmp/manager/v3.py", "symbols": ["Request.send", "Request.reallySend", "SNMPv3UsmManager.sendRequest", "SNMPv3UsmManager.poke", "SNMPv3UsmManager.onReport", "SNMPv3UsmManager.refresh"]}, {"file": "snmp/message/v3.py", "symbols": ["SNMPv3MessageProcessor.prepareOutgoingMessage"]}, {"file": "snmp/security/usm/implementation.py", "symbols": ["UserBasedSecurityModule.prepareOutgoing"]}]}
{"id": "C80", "title": "Which requests a v3 manager holds back during discovery", "statement": "sendRequest either transmits a request at once or holds it back, never both. A manager created without an engine ID, that got no report yet and has transmitted something since anyone last looked at the requests held back, holds every request back; one created with an engine ID, and told nothing about it, holds back exactly the authenticated ones; while nothing is on its way (and no send failed) nothing is held back; and after discovery - a report that led to a transmission, from the manager's engine if it was created with one; or a delivered response that was authenticated or came from the manager's engine - nothing is ever held back again. A manager created with an engine ID never holds back an unauthenticated request.", "quantifier": "all histories of requests, datagrams, timers and thread interleavings", "why_tests_cant": "the decision depends on the whole history; unbounded many interleavings of reports, responses and pokes", "anchors": [{"file": "snmp/manager/v3.py", "symbols": ["Inactive", "WaitForDiscovery", "Unsynchronized", "Synchronizing", "RequireAuthentication", "TrustEveryResponse", "SNMPv3UsmManager.sendRequest", "SNMPv3UsmManager.poke", "SNMPv3UsmManager.onReport"]}]}
{"id": "C81", "title": "Requests held back are transmitted when discovery completes", "statement": "When discovery completes every request held back is transmitted (or the attempt raises), so that no request times out without having been transmitted. (False of the code when discovery is completed by a response rather than by a report: the queue is left alone, and a request held back can time out untransmitted although the manager would transmit any new request at once.)", "quantifier": "all histories of requests, datagrams, timers and thread interleavings", "why_tests_cant": "depends on the kind of message that completes discovery and on what is queued then", "anchors": [{"file": "snmp/manager/v3.py", "symbols": ["SNMPv3UsmManager.onReport", "SNMPv3UsmManager.processResponse", "SNMPv3UsmManager.poke"]}]}
{"id": "C82", "title": "SNMPv3 request IDs", "statement": "Every request of an SNMPv3 manager carries a request ID that is a non-zero signed 32-bit integer and never changes, and no two of the first 2^32-1 requests of a manager carry the same one.", "quantifier": "all histories and all random draws of the generator", "why_tests_cant": "4 billion IDs and all random steps; a collision appears only after long runs", "anchors": [{"file": "snmp/manager/v3.py", "symbols": ["SNMPv3UsmManager.generateRequestID", "SNMPv3UsmManager.newGenerator"]}, {"file": "snmp/utils.py", "symbols": ["NumberGenerator"]}]}
{"id": "C83", "title": "A remote engine belongs to one namespace", "statement": "Two SNMPv3 managers obtained from one Engine for the same remote engine ID and both in use have the same namespace, so that messages from that engine are only ever checked against one set of credentials; a call of Manager that would break this raises.", "quantifier": "all histories of Manager, connectTransport and addUser calls", "why_tests_cant": "history property", "anchors": [{"file": "snmp/engine.py", "symbols": ["Engine.Manager", "Engine.v3Manager"]}, {"file": "snmp/manager/v3.py", "symbols": ["SNMPv3UsmManager.registerRemoteEngine"]}, {"file": "snmp/security/usm/implementation.py", "symbols": ["UserBasedSecurityModule.registerRemoteEngine"]}]}
{"id": "C84", "title": "A matching response reaches its handle (v1, v2c)", "statement": "While a request of a v1 or v2c manager is pending (sendRequest returned, the handle is alive and no wait() on it gave a result), any datagram that is a response in the manager's version with the request's ID and community is delivered to that request, whatever other requests, datagrams, failures and threads there were; a thread asleep in wait() then ends with exactly the bindings of that response, or with its ErrorResponse.", "quantifier": "all histories, requests and matching datagrams", "why_tests_cant": "needs an invariant over all histories: no other request, late response, collected handle or closing of another request may remove or replace the cache entry", "anchors": [{"file": "snmp/manager/v1.py", "symbols": ["Request.wait", "Request.push", "SNMPv1Manager.sendRequest"]}, {"file": "snmp/message/v1.py", "symbols": ["SNMPv1MessageProcessor.prepareDataElements"]}, {"file": "snmp/dispatcher.py", "symbols": ["Dispatcher.hear"]}]}
{"id": "C85", "title": "Nothing is sent for a finished request (v1, v2c)", "statement": "Once some wait() on a v1 or v2c request returned bindings or raised ErrorResponse, no further datagram is ever handed to the transport for that request, whatever other threads, requests and datagrams follow; after wait() raised Timeout the same holds as long as the clock does not run backwards.", "quantifier": "all histories, continuations and threads", "why_tests_cant": "a finished request may still sit in the manager's retransmission queue and be looked at by any other thread's wait(), so every later schedule matters", "anchors": [{"file": "snmp/manager/v1.py", "symbols": ["Request.wait", "SNMPv1Manager.refresh", "SNMPv1Manager.sendRequest", "Request.refresh"]}, {"file": "snmp/manager/v2c.py", "symbols": ["SNMPv2cManager.refresh"]}]}
{"id": "C86", "title": "get, getNext, getBulk and set ask exactly what the call says", "statement": "On a manager of any version a call of get, getNext, getBulk or set with names given as OIDs or as dotted text (and, for set, any values) puts on the wire only messages whose PDU is of the class named by the method, with one binding for each argument in order, the given values (Null where none is given), the given nonRepeaters and maxRepetitions, and the given or default community, or user and security level; the request expires after the given timeout; the call returns a handle or waits as asked. A name that is not an object identifier raises ValueError, and nothing is sent.", "quantifier": "all earlier histories, managers, defaults, argument lists and continuations", "why_tests_cant": "ranges over every combination of arguments, every state the manager may be in, and every later datagram sent for the request", "anchors": [{"file": "snmp/manager/v1.py", "symbols": ["SNMPv1Manager.get", "SNMPv1Manager.getNext", "SNMPv1Manager.set", "SNMPv1Manager.sendRequest"]}, {"file": "snmp/manager/v2c.py", "symbols": ["SNMPv2cManager.getBulk"]}, {"file": "snmp/manager/v3.py", "symbols": ["SNMPv3UsmManager.get", "SNMPv3UsmManager.getBulk", "SNMPv3UsmManager.getNext", "SNMPv3UsmManager.set", "SNMPv3UsmManager.sendRequest"]}, {"file": "snmp/pdu.py", "symbols": ["VarBind.__init__", "VarBindList.__init__"]}]}
{"id": "C87", "title": "An answer reaches the v3 request it belongs to", "statement": "A datagram that the security module of an SNMPv3 manager accepts and that answers a message the manager sent earlier (same message ID and user; for a response also the same engine, context and at least the same protection) is handed to the request for which that message was sent, whatever requests, retransmissions, datagrams and calls of other threads came between, as long as no wait() on that request has ended and its handle was not dropped. If it is a response, and the manager does not refuse it with an exception, the request is complete and a thread sleeping in wait() returns that response.", "quantifier": "all histories before and after the send, all datagrams, all interleavings of threads", "why_tests_cant": "ranges over everything that can happen between a send and its answer", "anchors": [{"file": "snmp/manager/v3.py", "symbols": ["RequestMessage.push", "Request.reallySend", "Request.close", "Request.processResponse"]}, {"file": "snmp/message/v3.py", "symbols": ["SNMPv3MessageProcessor.prepareDataElements", "SNMPv3MessageProcessor.retrieve"]}]}
{"id": "C88", "title": "A v3 manager does not refuse an answer with an internal error", "statement": "When the answer to a message of a request whose handle is alive, that is not complete, not expired and did not fail is processed by the listening thread, the manager acts on it: a response that names the engine of the request or of the manager completes the request, and a report of an unknown engine or of a clock that is off leads to a new transmission. It is not dropped because of SNMPLibraryBug or DiscoveryError.", "quantifier": "all histories and interleavings, all responses and reports", "why_tests_cant": "the refusal depends on how several threads interleave in wait() and send(), and on earlier failures of the transport", "anchors": [{"file": "snmp/manager/v3.py", "symbols": ["SNMPv3UsmManager.poke", "SNMPv3UsmManager.refresh", "SNMPv3UsmManager.onReport", "SNMPv3UsmManager.processResponse", "Inactive", "Unsynchronized", "WaitForDiscovery"]}]}
{"id": "C89", "title": "A properly secured message is accepted", "statement": "An SNMPv3 datagram that names an engine for which the user-based security module is registered and a user configured there with authentication, that carries a genuine authentication code of that user for that engine, whose engine time lies in the time window the module has for that engine at that moment (or is newer than everything heard from it), and whose payload decodes (after decryption with that user's key, when it is encrypted) to a scoped PDU, is accepted, and the module hands on exactly that scoped PDU. No other authenticated message is accepted.", "quantifier": "all histories of configuration, registration, outgoing and incoming messages of the module, all datagrams", "why_tests_cant": "C43 and C44 say what must be refused; that nothing genuine is refused depends on the whole history of registrations and of clock readings", "anchors": [{"file": "snmp/security/usm/implementation.py", "symbols": ["UserBasedSecurityModule.processIncoming"]}, {"file": "snmp/security/usm/timekeeper.py", "symbols": ["TimeKeeper.updateAndVerify"]}]}
{"id": "C90", "title": "Encryption interoperates with peers that follow the RFCs", "statement": "With the same localised key, what any implementation of RFC 3414 section 8 (DES) or RFC 3826 (AES) encrypts, with any salt and any padding, is decrypted by the privacy classes to the plaintext followed at most by trailing bytes, and the scoped PDU in it is decoded unchanged; what the privacy classes encrypt is decrypted by such an implementation, and AES ciphertext is as long as the plaintext. This holds for each back end.", "quantifier": "all keys, plaintexts, paddings, salts, engine boots and times, both protocols, both back ends", "why_tests_cant": "round-trip tests use the library on both sides, and a mistake made on both sides cancels out; the claim is about all peers and all lengths", "anchors": [{"file": "snmp/security/usm/priv/openssl/aes.py", "symbols": ["AesCfb128.packIV"]}, {"file": "snmp/security/usm/priv/openssl/__init__.py", "symbols": []}, {"file": "snmp/security/usm/priv/pycryptodome/des.py", "symbols": ["DesCbc.pad"]}]}
{"id": "C91", "title": "Objects are equal exactly if they encode alike", "statement": "Two SMI values, variable bindings, lists of variable bindings, or PDUs compare equal with == exactly if encode() gives the same bytes for both, so that == may be used to compare what was sent with what was received, also when the class differs but the ASN.1 type is the same (Unsigned32 and Gauge32). The comparison does not raise, and it is an equivalence relation.", "quantifier": "all pairs and triples of values, bindings, lists and PDUs", "why_tests_cant": "unbounded values, lengths and nesting; == and encode() are written separately in each class", "anchors": [{"file": "snmp/asn1.py", "symbols": ["Constructed.__eq__", "INTEGER.__eq__", "OCTET_STRING.__eq__", "NULL.__eq__", "OBJECT_IDENTIFIER.__eq__"]}, {"file": "snmp/pdu.py", "symbols": ["PDU.__iter__", "BulkPDU.__iter__", "VarBind.__iter__", "VarBindList.__iter__"]}]}
{"id": "C92", "title": "OIDs are ordered as in the MIB tree", "statement": "Comparison of OIDs with < is the lexicographic order of the MIB tree: an OID comes before everything below it, and otherwise the first differing number decides. It is a strict total order that agrees with ==, and everything between two OIDs of a subtree lies in that subtree.", "quantifier": "all OIDs of any length", "why_tests_cant": "unbounded lengths and triples", "anchors": [{"file": "snmp/asn1.py", "symbols": ["OBJECT_IDENTIFIER.__lt__", "OBJECT_IDENTIFIER.__eq__"]}]}
{"id": "C93", "title": "wait() ends", "statement": "Once no further calls are made and the clock has passed the deadlines of the requests, every wait() that is still running ends after a bounded number of steps of each thread, whatever else the threads, the listening thread and the garbage collector do, provided every thread keeps being scheduled: no deadlock on the manager's lock, no endless loop. (False of v1 and v2c: a wait() that goes to sleep without a timeout never ends.)", "quantifier": "all histories, numbers of threads and requests, all fair continuations", "why_tests_cant": "liveness over unbounded histories, numbers of threads and schedules", "anchors": [{"file": "snmp/manager/v3.py", "symbols": ["SNMPv3UsmManager.refresh", "SNMPv3UsmManager.poke", "SNMPv3UsmManager.onReport", "Request.wait", "Request.refresh"]}, {"file": "snmp/manager/v1.py", "symbols": ["Request.wait", "SNMPv1Manager.refresh"]}, {"file": "snmp/manager/v2c.py", "symbols": ["Request.wait", "SNMPv2cManager.refresh"]}]}
{"id": "C94", "title": "The first exchange with an agent that answers succeeds", "statement": "The first request of a v3 manager, with a thread in wait() on it, succeeds if the agent answers. Without an engine ID exactly one datagram is sent, a discovery message; when the agent's unknown-engine report is accepted, the request itself, with the user's PDU, user name and security level, goes to the engine that the report names. A manager created with the engine ID sends the request at once. From there on every accepted response to that datagram ends wait() with exactly what it says; and if the agent first reports that the message is not in its time window, the request is sent once more, and every accepted response to this datagram ends wait(). Sending must not raise an exception.", "quantifier": "all PDUs, users, security levels, timeouts, clock readings, datagrams and security states", "why_tests_cant": "must hold for every message an agent may send and every state of the security module, and is about the whole chain from send() over the wire and the listening thread to the result of wait()", "anchors": [{"file": "snmp/manager/v3.py", "symbols": ["SNMPv3UsmManager.sendRequest", "SNMPv3UsmManager.onReport", "SNMPv3UsmManager.processResponse", "Request.wait", "Request.send", "RequestMessage.push"]}]}
{"id": "C95", "title": "Managers of one engine do not disturb each other (v1, v2c)", "statement": "The v1 (v2c) managers made by one engine share a message processor and a listening thread. Whatever is done with the other managers, by any threads and for however long, and whatever datagrams arrive: until something is done with a manager, its requests stay as they are, nothing is sent for them, the threads in wait() on them stay where they are, and a request that was pending stays pending, so that its response is delivered.", "quantifier": "all histories of any number of managers, requests and threads", "why_tests_cant": "depends on what the other managers do in between, and on the shared table of outstanding requests", "anchors": [{"file": "snmp/engine.py", "symbols": ["Engine.v1Manager", "Engine.v2cManager"]}, {"file": "snmp/manager/v1.py", "symbols": ["SNMPv1Manager.sendRequest", "SNMPv1Manager.refresh", "Request.close"]}, {"file": "snmp/message/v1.py", "symbols": ["SNMPv1MessageProcessor.prepareDataElements"]}]}
{"id": "C96", "title": "A request leaves through the processor of its version, or not at all", "statement": "sendPdu() of a dispatcher with no message processor for the version raises ValueError, sends nothing and changes nothing. Otherwise the message that the processor added last for that version prepares is sent, exactly, on the channel's socket to the channel's address; the only exceptions are the processor's and the socket's, and in their case nothing is sent.", "quantifier": "all sequences of addMessageProcessor, all processors, versions, PDUs, channels", "why_tests_cant": "must hold for every processor and every order of registration", "anchors": [{"file": "snmp/dispatcher.py", "symbols": ["Dispatcher.addMessageProcessor", "Dispatcher.sendPdu"]}, {"file": "snmp/transport/__init__.py", "symbols": ["TransportChannel.send"]}]}
{"id": "C97", "title": "A user's keys are the ones RFC 3414 derives from its secrets", "statement": "Once addUser() has accepted a user, every engine registered under its namespace, before or after, uses for that name the authentication key made from authSecret (secret, if authSecret is missing or empty) and the privacy key made from privSecret (or secret), both with the hash of the authentication protocol: the hash of 2^20 octets of the repeated secret, hashed again around the engine ID. A protocol without any secret makes addUser() raise ZeroDivisionError, and nothing is configured.", "quantifier": "all histories of addUser, registration and release; all arguments and engine IDs", "why_tests_cant": "which of the three secrets is used must be right in every combination, and in every order of registering engines and adding users", "anchors": [{"file": "snmp/security/usm/credentials.py", "symbols": ["Credentials.__init__", "Credentials.localize"]}, {"file": "snmp/security/usm/auth.py", "symbols": ["HmacAuthProtocol.computeKey", "HmacAuthProtocol.localizeKey"]}, {"file": "snmp/security/usm/users.py", "symbols": ["UserRegistry.addUser", "UserRegistry.assign", "UserRegistry.getCredentials"]}]}
{"id": "C98", "title": "The octets on the wire are the ones the RFCs prescribe", "statement": "Whatever the library encodes - a value, a v1 or v2c message, an SNMPv3 message, security parameters - the result is exactly the octet string that BER (X.690), RFC 2578, RFC 3416, RFC 1157/1901, RFC 3412 and RFC 3414 prescribe for that object: identifier octets, shortest lengths and integers, order of the fields, version and security model numbers, flag bits. (False of the code for object identifiers whose first two numbers run into each other, such as 1.8, and for those with fewer than two numbers.)", "quantifier": "all values, PDUs, messages and security parameters that can be encoded", "why_tests_cant": "a pair of encoder and decoder that agree with each other but not with the standard passes every round-trip test; only a comparison with an independent specification on every object settles it", "anchors": [{"file": "snmp/ber.py", "symbols": ["encode", "encode_length"]}, {"file": "snmp/asn1.py", "symbols": ["ASN1.encode", "Constructed.serialize", "INTEGER.serialize", "OBJECT_IDENTIFIER.serialize"]}, {"file": "snmp/smi.py", "symbols": ["Counter32", "Gauge32", "TimeTicks", "Counter64", "IpAddress", "Opaque"]}, {"file": "snmp/pdu.py", "symbols": ["PDU", "BulkPDU", "VarBind"]}, {"file": "snmp/message/core.py", "symbols": ["Message"]}, {"file": "snmp/message/v3.py", "symbols": ["MessageFlags", "HeaderData", "ScopedPDU", "SNMPv3Message"]}, {"file": "snmp/security/usm/parameters.py", "symbols": ["UsmSecurityParameters"]}]}
{"id": "C99", "title": "Every standard encoding of a message is read as that message", "statement": "If an octet string is, by X.690 and the RFCs, an encoding of a v1, v2c or SNMPv3 message, of a scoped PDU or of USM security parameters - with short or long lengths, shortest or not, any reserved flag bits, integers with redundant leading octets - then decoding it gives exactly that object: same version, community, header, flags, PDU class, IDs, names, values and classes of values. (False of the code for object identifiers 2.40 and above: a response that mentions one is refused.)", "quantifier": "all messages with values in their ranges, and all of their encodings", "why_tests_cant": "other implementations choose encodings that the library itself never produces, so round trips through its own encoder say nothing about them", "anchors": [{"file": "snmp/ber.py", "symbols": ["decode", "decode_length"]}, {"file": "snmp/asn1.py", "symbols": ["ASN1.decode", "INTEGER.deserialize", "OBJECT_IDENTIFIER.deserialize"]}, {"file": "snmp/pdu.py", "symbols": ["VarBind.deserialize", "VarBindList.deserialize", "PDU.deserialize", "BulkPDU.deserialize"]}, {"file": "snmp/message/core.py", "symbols": ["Message.deserialize"]}, {"file": "snmp/message/v3.py", "symbols": ["MessageFlags.construct", "HeaderData.deserialize", "ScopedPDU.deserialize", "SNMPv3Message.deserialize"]}, {"file": "snmp/security/usm/parameters.py", "symbols": ["UsmSecurityParameters.deserialize"]}]}
{"id": "C100", "title": "A complete v1 or v2c exchange gives what the agent answered", "statement": "A call of get, getNext, getBulk or set on a v1 or v2c manager that does not raise sends a datagram; all datagrams ever sent for it are exactly the octets the standards prescribe for one message that asks what the call says, with the given or default community. Whatever happens in between, if any octets that the standards allow for a response to that message arrive while a thread sleeps in wait() on the handle, then wait() returns exactly the bindings of the answer, or raises ErrorResponse with its status, its index and the request. (False of the code for names that are not encoded faithfully, and for answers that mention object identifiers 2.40 and above: those are dropped.)", "quantifier": "all prior and intermediate histories of the engine, calls, arguments, answers, and encodings of an answer", "why_tests_cant": "it joins the encoder, the request table, any interleaving of threads, datagrams and retransmissions, and decoding of encodings the library never produces; a test checks one agent and one schedule", "anchors": [{"file": "snmp/manager/v1.py", "symbols": ["SNMPv1Manager.sendRequest", "SNMPv1Manager.get", "SNMPv1Manager.getNext", "SNMPv1Manager.set"]}, {"file": "snmp/manager/v2c.py", "symbols": ["SNMPv2cManager.getBulk"]}, {"file": "snmp/message/core.py", "symbols": ["Message.deserialize"]}]}
{"id": "C101", "title": "Messages that a standard engine protects are accepted and read", "statement": "After any history of a security module in which addUser accepted a user, and whose namespace an engine is registered in, every datagram that this engine protected for this user as RFC 3414, RFC 7860 and RFC 3826 say (localised keys, truncated MAC over the message with a zeroed signature field, CBC-DES or CFB-AES with any salt and padding, any BER length form), inside the time window, is accepted, and what is delivered is the scoped PDU the engine meant, with its header, engine ID and user name. Messages without authentication are read whatever the configuration. (False of the code for DES on an OpenSSL that holds back the last block, and for answers that mention object identifiers 2.40 and above.)", "quantifier": "all histories of a module, users, protocols, engines, salts, paddings, scoped PDUs and encodings", "why_tests_cant": "the sender is another implementation with its own choices; a round trip through the library's own encoder tests only the library's choices", "anchors": [{"file": "snmp/security/usm/implementation.py", "symbols": ["UserBasedSecurityModule.processIncoming"]}, {"file": "snmp/message/v3.py", "symbols": ["SNMPv3Message.decode"]}]}
{"id": "C102", "title": "A complete SNMPv3 exchange with an agent that follows the standards", "statement": "Issue a request on a fresh v3 manager and wait on it. Without an engine ID exactly one discovery message is sent; whatever octets an agent with engine ID E sends, by the standards, to report that it does not know the engine ID, the request is then sent to E, protected for the user. Any response that the agent protects for the user as RFC 3414 says, in any valid encoding and within the time window, ends wait() with what the response says; and if the agent first reports, with authentication, that the request is outside its time window, the request is sent once more and the response to that ends wait(). The same holds for a manager created with the engine ID, without the discovery, and, for the responses, for any request that a thread still waits for in the middle of any use of the manager. (False of the code for DES on an OpenSSL that holds back the last block, and for answers that mention object identifiers 2.40 and above.)", "quantifier": "all users, security levels, PDUs, agents, engine IDs, boots, times, salts and encodings, and all histories for the last part", "why_tests_cant": "the agent is another implementation, with its own encodings, salts and clock; tests exercise the library against recorded or self-made messages", "anchors": [{"file": "snmp/manager/v3.py", "symbols": ["SNMPv3UsmManager"]}, {"file": "snmp/security/usm/implementation.py", "symbols": ["UserBasedSecurityModule.processIncoming"]}]}
{"id": "C103", "title": "What is sent is what RFC 3412, 3414, 3416 and 3826 prescribe, readable by any engine that follows them", "statement": "Every datagram that the security module makes of a message, and every datagram an SNMPv3 manager hands to the channel for a request, is one that an engine following the standards reads as that request: the header with the level asked for, the reportable flag exactly for confirmed PDUs, the engine ID, boots and time of the current estimate (zero without authentication), the user's name, the digest computed over the datagram with the key that the standards derive from the secrets given to addUser, the scoped PDU encrypted with the key they derive, with the request's own PDU in it. With PyCryptodome, and without privacy, the datagram is octet for octet one that the standards prescribe. Without an engine ID it is the discovery message of RFC 3414 section 4. (False of the code for object identifiers such as 1.8, C98, and for the ciphertext length with OpenSSL, C90.)", "quantifier": "all users, secrets, protocols, messages, engine IDs, histories of the module and of the manager, both back ends", "why_tests_cant": "the receiver is another implementation; the library's own decoder and its own key derivation cannot show that both are right", "anchors": [{"file": "snmp/manager/v3.py", "symbols": ["SNMPv3UsmManager"]}, {"file": "snmp/security/usm/implementation.py", "symbols": ["UserBasedSecurityModule.prepareOutgoing"]}]}
{"id": "C104", "title": "OpenSSL contexts and buffers are used safely", "statement": "With the OpenSSL back end, in any interleaving of encryptions and decryptions and whatever calls fail: no cipher context is used or freed after it was freed, and when the operations have returned or raised, none is left; data is only given to a context that the same operation has initialised with success, and no other operation is given that context; the C library reads no byte beyond the key, IV and data it is given, and has all the room it demands for its output; a failing call is an exception, never a result. (False of the code: a DES message with a salt shorter than eight bytes makes the C library read beyond the IV.)", "quantifier": "all interleavings, all failures of library calls and allocations, all keys, data and salts", "why_tests_cant": "leaks and reads out of bounds have no visible effect in a test, and library calls do not fail in one", "anchors": [{"file": "snmp/security/usm/priv/openssl/__init__.py", "symbols": ["EnvelopeContext", "Envelope.process", "Envelope.allocateOutputBuffer"]}, {"file": "snmp/security/usm/priv/openssl/des.py", "symbols": ["DesCbc.decrypt"]}, {"file": "snmp/security/usm/priv/openssl/aes.py", "symbols": ["AesCfb128.decrypt"]}]}
{"id": "C105", "title": "Where there is no poll, listening starts, goes on and stops all the same", "statement": "With the generic UDP multiplexor (used on Windows): outside of connectTransport and shutdown a thread listens on every connected transport until the dispatcher is shut down, whatever datagrams other programs send to its loopback stop channel; connectTransport and shutdown end the running thread after at most as many rounds as there are datagrams waiting on that channel, without raising, and leave all transports watched or closed; shutdown can be repeated; a dispatcher can be connected again after shutdown. (False of the code: a read that raises ends the thread; after a shutdown a new transport is never listened to, and the call after that raises OSError.)", "quantifier": "all histories of connects, shutdowns, rounds of the listening thread, and datagrams at any of the sockets", "why_tests_cant": "the stop channel can be hit by others between any two steps, and the generic multiplexor is not the one used on the test machine", "anchors": [{"file": "snmp/transport/generic/udp.py", "symbols": ["GenericUdpMultiplexor.register", "GenericUdpMultiplexor.listen", "GenericUdpMultiplexor.stop", "GenericUdpMultiplexor.close"]}, {"file": "snmp/dispatcher.py", "symbols": ["Dispatcher.connectTransport", "Dispatcher.shutdown"]}]}
{"id": "C106", "title": "The repr of an object is an expression for that object", "statement": "For every ASN.1 value, variable binding, list of bindings and PDU that the constructors accept, and for every PDU that was decoded from received octets, evaluating repr(x) as a Python expression with the library's classes in scope constructs an object equal to x; in particular the repr tells different objects apart. (The error status of a PDU comes back as a plain number, which compares equal.)", "quantifier": "all values, whatever octets, quotation marks, control characters, backslashes, numbers and sub-identifiers they contain; all lists; all PDU types; all received octets", "why_tests_cant": "the octets, lengths and nesting are unbounded, and every octet has its own escape in every context", "anchors": [{"file": "snmp/asn1.py", "symbols": ["INTEGER.__repr__", "OCTET_STRING.__repr__", "NULL.__repr__", "OBJECT_IDENTIFIER.__repr__"]}, {"file": "snmp/smi.py", "symbols": ["OctetString.__repr__", "IpAddress.__repr__"]}, {"file": "snmp/pdu.py", "symbols": ["VarBind.__repr__", "VarBindList.__repr__", "PDU.__repr__", "BulkPDU.__repr__"]}]}
{"id": "C107", "title": "What is printed identifies what it was printed from", "statement": "str() of two different values, variable bindings, lists of variable bindings (with any indentation that contains no newline) or PDUs is different; a list of bindings is printed with exactly one line for each; str() of a PDU fails only if its error status is a number that is no ErrorStatus, so never for a PDU that was received.", "quantifier": "all values, lists and PDUs that the constructors accept, all indentations, all received octets", "why_tests_cant": "two colliding texts among infinitely many can not be found by examples, e.g. an octet string that contains a newline and the text of a binding", "anchors": [{"file": "snmp/pdu.py", "symbols": ["VarBind.__str__", "VarBindList.__str__", "VarBindList.toString", "PDU.toString", "BulkPDU.toString", "ErrorStatus"]}, {"file": "snmp/asn1.py", "symbols": ["OBJECT_IDENTIFIER.__str__"]}]}
{"id": "C108", "title": "Message flags never claim privacy without authentication", "statement": "However the attributes authFlag, privFlag, reportableFlag and securityLevel of a MessageFlags object are assigned, in any order and number, with exceptions caught or not: the octet it encodes to is one of the six that RFC 3412 allows, agrees with what the attributes show, and is read back as the same flags; an assignment that would mean privacy without authentication raises ValueError and changes nothing, every other assignment changes just that attribute; every allowed combination can be reached from every other.", "quantifier": "all histories of assignments to the attributes, all initial flags", "why_tests_cant": "a history of assignments can be of any length, with refused ones in between", "anchors": [{"file": "snmp/message/v3.py", "symbols": ["MessageFlags.authFlag", "MessageFlags.privFlag", "MessageFlags.data", "MessageFlags.construct"]}, {"file": "snmp/security/levels.py", "symbols": ["SecurityLevel.__init__"]}]}
{"id": "C109", "title": "The managers of an engine do not disturb each other", "statement": "Whatever the SNMPv3 managers of one engine do, with any number of managers, requests and threads, each of them is at any time in a state in which it could be if it had the engine to itself, up to registrations of engines and messages of others; an engine ID is registered with the security module exactly as often as managers and requests name it, under the namespace of each that names it, so managers with different namespaces never use the same engine ID, and a new manager is refused just if its engine ID is named by one with another namespace; when all managers are collected nothing stays registered; a datagram is handed to one manager at most, and none misses one because of the others.", "quantifier": "all interleavings of creations, sends, waits, datagrams, collections and new users, any number of managers with any namespaces", "why_tests_cant": "managers share the message processor and the security module, and interleave in unboundedly many ways", "anchors": [{"file": "snmp/engine.py", "symbols": ["Engine.v3Manager"]}, {"file": "snmp/manager/v3.py", "symbols": ["SNMPv3UsmManager.__init__", "SNMPv3UsmManager.sendRequest"]}, {"file": "snmp/security/usm/implementation.py", "symbols": ["UserBasedSecurityModule.registerRemoteEngine", "UserBasedSecurityModule.unregisterRemoteEngine"]}]}
{"id": "C110", "title": "A request is put on the wire a bounded number of times", "statement": "A request with a positive refresh period is put on the wire at most once for every period begun before its timeout, and once in any case; for SNMPv3, additionally at most once for every report that is received for it.", "quantifier": "all requests with a positive period, all histories of sends, waits, datagrams and clock readings", "why_tests_cant": "how often a request is resent depends on every reading of the clock and on everything other threads and requests do", "anchors": [{"file": "snmp/manager/v1.py", "symbols": ["Request.refresh", "Request.send", "Request.reallySend", "SNMPv1Manager.refresh"]}, {"file": "snmp/manager/v3.py", "symbols": ["Request.refresh", "Request.send", "Request.reallySend", "SNMPv3UsmManager.refresh", "SNMPv3UsmManager.poke", "SNMPv3UsmManager.onReport"]}]}
{"id": "C111", "title": "Object identifiers and variable-binding lists are sequences, and object identifiers and tags are sound dictionary keys", "statement": "Indexing, slicing, iterating and measuring an object identifier or a variable-binding list behave as for a tuple of its elements, IndexError exactly outside; an OID comes apart at any place into two parts that extend() joins again, and startswith() holds exactly of its prefixes. A dictionary keyed by object identifiers holds for each what was last stored under the same sub-identifiers, whichever class the key object has and whatever hash() yields; likewise for tags, so that the decoder of a variable binding finds exactly the class that carries the tag.", "quantifier": "all object identifiers, lists, indices and slice bounds, all hash functions and table layouts, all histories of stores and deletions", "why_tests_cant": "equality and hashing must agree for every pair of keys, and collisions depend on the interpreter; indices range over all integers", "anchors": [{"file": "snmp/asn1.py", "symbols": ["OBJECT_IDENTIFIER.__eq__", "OBJECT_IDENTIFIER.__hash__", "OBJECT_IDENTIFIER.__getitem__", "OBJECT_IDENTIFIER.__iter__", "OBJECT_IDENTIFIER.__len__", "OBJECT_IDENTIFIER.extend", "OBJECT_IDENTIFIER.startswith"]}, {"file": "snmp/ber.py", "symbols": ["Tag.__eq__", "Tag.__hash__"]}, {"file": "snmp/pdu.py", "symbols": ["VarBind.deserialize", "VarBindList.__getitem__", "VarBindList.__bool__", "VarBindList.__iter__", "VarBindList.__len__"]}]}
{"id": "C112", "title": "The security module may be used by several threads at once", "statement": "Calls of prepareOutgoing and processIncoming by any number of threads, interleaved in any way with each other and with addUser, registerRemoteEngine and unregisterRemoteEngine: each call returns (or raises) what an undisturbed call would on the users as they were at one moment of the call and the clock as it was at a later one, has its effect on the clock in one step and no other, and is over after two steps of its own whatever the others do. An authenticated message is accepted only if it is authentic for a user configured at a moment of that call, and once any thread has accepted one, the estimate of the engine's boots and time never goes back.", "quantifier": "all configurations, messages, numbers of threads and interleavings of the critical sections, all values of the salt counters", "why_tests_cant": "a race needs a particular interleaving of lock acquisitions; tests run one call at a time", "anchors": [{"file": "snmp/security/usm/implementation.py", "symbols": ["UserBasedSecurityModule.prepareOutgoing", "UserBasedSecurityModule.processIncoming", "UserBasedSecurityModule.addUser", "UserBasedSecurityModule.registerRemoteEngine", "UserBasedSecurityModule.unregisterRemoteEngine"]}, {"file": "snmp/security/usm/timekeeper.py", "symbols": ["TimeKeeper.updateAndVerify", "TimeKeeper.hint", "TimeKeeper.getEngineTime"]}]}
{"id": "C113", "title": "Request and message IDs are given back", "statement": "An ID under which a request of a manager is outstanding (the request ID of v1/v2c, the message ID of v3) belongs to a request whose handle still exists; with v1/v2c every request has at most one, with v3 every message at most one. When wait() on a v3 request ends, by a result or by any exception, no ID is reserved for that request any more; once wait() on a v1/v2c request has given a result, none is reserved for it ever again; and once a handle has been dropped, none is reserved for it ever again, whatever else is sent, received, refreshed, waited on or dropped. So IDs cannot leak: the reserved ones are those of the handles the program still holds.", "quantifier": "all histories of sends, waits by any number of threads, received datagrams, failed transmissions and dropped handles, for any number of managers on the same engine", "why_tests_cant": "a leak shows only after 2^31 requests or in a rare order of events (an answer after the timeout, a resend at the end of a wait); tests look at single exchanges", "anchors": [{"file": "snmp/manager/v1.py", "symbols": ["Request.close", "Request.wait", "Request.__del__"]}, {"file": "snmp/manager/v2c.py", "symbols": ["Request.close", "Request.wait"]}, {"file": "snmp/manager/v3.py", "symbols": ["Request.close", "Request.wait", "Request.__del__", "RequestMessage.close"]}, {"file": "snmp/message/v3.py", "symbols": ["SNMPv3MessageProcessor.uncache"]}]}
{"id": "C114", "title": "A datagram that answers nothing leaves nothing behind", "statement": "A received datagram that is handed to no request, because it does not decode, has another version, an unknown ID, another community, user or engine, or insufficient security, leaves the engine exactly as it was: no request, reserved ID, user, engine registration or clock estimate is added, removed or changed.", "quantifier": "all histories and all datagrams", "why_tests_cant": "the datagrams that change something are a thin subset of all byte strings", "anchors": [{"file": "snmp/dispatcher.py", "symbols": ["Dispatcher.hear"]}, {"file": "snmp/message/v3.py", "symbols": ["SNMPv3MessageProcessor.prepareDataElements"]}, {"file": "snmp/message/v1.py", "symbols": ["SNMPv1MessageProcessor.prepareDataElements"]}, {"file": "snmp/security/usm/implementation.py", "symbols": ["UserBasedSecurityModule.processIncoming"]}, {"file": "snmp/security/usm/timekeeper.py", "symbols": ["TimeKeeper.hint", "TimeKeeper.assertEntry"]}]}
{"id": "C115", "title": "A failed transmission of one request does not end wait() on another", "statement": "wait() on one request is not ended by the failure to transmit another: if wait() on a request raises an exception that comes from sending, it was a transmission of that request that failed.", "quantifier": "all histories, any number of requests, waiting threads and managers, any failure of the channel, the security module or the user registry", "why_tests_cant": "needs two requests of which one is due and a transport error in exactly that step", "anchors": [{"file": "snmp/manager/v1.py", "symbols": ["Request.wait", "SNMPv1Manager.refresh"]}, {"file": "snmp/manager/v2c.py", "symbols": ["Request.wait", "SNMPv2cManager.refresh"]}, {"file": "snmp/manager/v3.py", "symbols": ["Request.wait", "SNMPv3UsmManager.refresh", "SNMPv3UsmManager.poke"]}]}
{"id": "C116", "title": "Messages are equal exactly if they encode alike", "statement": "Comparing two v1/v2c messages, two v3 messages, two headers, two scoped PDUs or two USM parameter objects with == does not raise if both can be encoded, and is true exactly if they encode to the same octets; so no field that goes on the wire is left out and none that does not go on the wire (the local security name and engine ID of a v3 message) counts. Message flags are equal exactly if the security level and the reportable flag are.", "quantifier": "all pairs of encodable objects of these classes whose OIDs the wire can represent", "why_tests_cant": "pairs that differ in one field only, in every field, with every value; a field left out of __iter__ shows in no comparison of unequal samples", "anchors": [{"file": "snmp/asn1.py", "symbols": ["Constructed.__eq__", "OCTET_STRING.__eq__", "INTEGER.__eq__"]}, {"file": "snmp/message/core.py", "symbols": ["Message.__iter__", "Message.__len__"]}, {"file": "snmp/message/v3.py", "symbols": ["HeaderData.__iter__", "ScopedPDU.__iter__", "SNMPv3Message.__iter__", "MessageFlags.data"]}, {"file": "snmp/security/usm/parameters.py", "symbols": ["UsmSecurityParameters.__iter__"]}]}
{"id": "C117", "title": "Dropped requests leave no entries in a manager", "statement": "The memory a manager uses for pending requests is bounded by the number of requests the program still holds a handle of: once the handle of a request has been dropped, the manager's tables of requests have no entry for it.", "quantifier": "all histories of sends, waits, received datagrams and dropped handles", "why_tests_cant": "the entries are a few bytes each and invisible; only counting them over arbitrarily long histories shows the growth", "anchors": [{"file": "snmp/manager/v1.py", "symbols": ["SNMPv1Manager.sendRequest", "SNMPv1Manager.refresh"]}, {"file": "snmp/manager/v2c.py", "symbols": ["SNMPv2cManager.sendRequest"]}, {"file": "snmp/manager/v3.py", "symbols": ["SNMPv3UsmManager.sendRequest", "SNMPv3UsmManager.poke"]}]}
{"id": "C118", "title": "Indentation shows what is part of what", "statement": "The argument depth of toString(depth, tab) only indents: the text is that of toString(0, tab) with tab * depth in front of every line that is not empty, for PDUs, messages, their headers, flags, scoped PDUs and security parameters; so in the text of a message each part is shown as it is on its own, indented.", "quantifier": "all objects, all depths, all tabs that contain no newline", "why_tests_cant": "the values, names and bindings in the text are unbounded, and a newline among them, or a line that forgets its indentation, shows only for some classes at some depths", "anchors": [{"file": "snmp/pdu.py", "symbols": ["PDU.toString", "BulkPDU.toString", "VarBindList.toString"]}, {"file": "snmp/message/core.py", "symbols": ["Message.toString"]}, {"file": "snmp/message/v3.py", "symbols": ["MessageFlags.toString", "HeaderData.toString", "ScopedPDU.toString", "SNMPv3Message.toString"]}, {"file": "snmp/security/usm/parameters.py", "symbols": ["UsmSecurityParameters.toString"]}]}
{"id": "C119", "title": "What is printed of a message identifies it", "statement": "toString() of two different messages, headers, flags, scoped PDUs or security parameters is different (of an SNMPv3 message the header, the security parameters and the payload that is sent, so that messages printed alike are encoded alike); and no message that was received makes it fail.", "quantifier": "all objects that the constructors accept, all depths and tabs without newline, all received octets", "why_tests_cant": "two colliding texts among infinitely many can not be found by examples, nor a received message whose text cannot be made", "anchors": [{"file": "snmp/message/core.py", "symbols": ["Message.toString", "Message.__str__"]}, {"file": "snmp/message/v3.py", "symbols": ["MessageFlags.toString", "HeaderData.toString", "ScopedPDU.toString", "SNMPv3Message.toString"]}, {"file": "snmp/security/usm/parameters.py", "symbols": ["UsmSecurityParameters.toString"]}, {"file": "snmp/security/levels.py", "symbols": ["SecurityLevel.__str__"]}]}
{"id": "C120", "title": "The repr of a subbytes is an expression for it", "statement": "Evaluating repr(s) of a subbytes as a Python expression constructs the same slice of the same octets.", "quantifier": "all octets, all offsets within them", "why_tests_cant": "octets and offsets are unbounded; whether an offset is left out depends on the bounds", "anchors": [{"file": "snmp/utils.py", "symbols": ["subbytes.__repr__", "subbytes.translate"]}]}
{"id": "C121", "title": "The repr of a message is an expression for it", "statement": "Evaluating repr(x) as a Python expression gives back x, for community messages, version-only messages, security levels, message flags, headers, scoped PDUs, USM security parameters and SNMPv3 messages (of which the part of the payload that is not sent, and what is known only after decoding, are left out), in every version of Python; every message that was received gives itself; and so two messages with the same repr are encoded alike.", "quantifier": "all objects that the constructors accept, all received octets, both ways in which Python prints the members of enumerations", "why_tests_cant": "octets, numbers and bindings are unbounded; a character that is escaped wrongly or an argument in the wrong place shows only for some values", "anchors": [{"file": "snmp/message/core.py", "symbols": ["Message.__repr__"]}, {"file": "snmp/message/version.py", "symbols": ["VersionOnlyMessage.__repr__"]}, {"file": "snmp/message/v3.py", "symbols": ["MessageFlags.__repr__", "HeaderData.__repr__", "ScopedPDU.__repr__", "SNMPv3Message.__repr__"]}, {"file": "snmp/security/usm/parameters.py", "symbols": ["UsmSecurityParameters.__repr__"]}, {"file": "snmp/security/levels.py", "symbols": ["SecurityLevel.__repr__", "SecurityLevel.__str__"]}]}
