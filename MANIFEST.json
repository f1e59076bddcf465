{
 "claims": [
  {
   "property": "C01",
   "status": "partial",
   "theorems": [
    "Snmp.C01_bytes_partial",
    "Snmp.C01_view_partial",
    "Snmp.C01_inverted_partial",
    "Snmp.C01_len_false",
    "Snmp.C01_slice_false",
    "Snmp.C01_negative_step_false"
   ],
   "note": "Full agreement for in-order bounds; the full statement is false (len() raises for inverted bounds, slicing an inverted view and negative steps go wrong), shown by witnesses."
  },
  {
   "property": "C02",
   "status": "proved",
   "theorems": [
    "Snmp.C02_replace",
    "Snmp.C02_split"
   ],
   "note": "For views lying inside their wrapped bytes, which C01 shows every in-order construction produces."
  },
  {
   "property": "C03",
   "status": "proved",
   "theorems": [
    "Snmp.C03_enumerates"
   ],
   "note": ""
  },
  {
   "property": "C04",
   "status": "proved",
   "theorems": [
    "Snmp.C04_weakref",
    "Snmp.C04_dead_forever"
   ],
   "note": "Garbage collection is an arbitrary event in the history."
  },
  {
   "property": "C05",
   "status": "proved",
   "theorems": [
    "Snmp.C05_tag_roundtrip"
   ],
   "note": ""
  },
  {
   "property": "C06",
   "status": "proved",
   "theorems": [
    "Snmp.C06_length_roundtrip",
    "Snmp.C06_encode_limit"
   ],
   "note": ""
  },
  {
   "property": "C07",
   "status": "proved",
   "theorems": [
    "Snmp.C07_tlv_roundtrip"
   ],
   "note": ""
  },
  {
   "property": "C08",
   "status": "proved",
   "theorems": [
    "Snmp.C08_contiguous",
    "Snmp.C08_append"
   ],
   "note": ""
  },
  {
   "property": "C09",
   "status": "proved",
   "theorems": [
    "Snmp.C09_truncation"
   ],
   "note": ""
  },
  {
   "property": "C10",
   "status": "proved",
   "theorems": [
    "Snmp.C10_smi",
    "Snmp.C10_varbind",
    "Snmp.C10_varbindlist",
    "Snmp.C10_pdu"
   ],
   "note": ""
  },
  {
   "property": "C100",
   "status": "partial",
   "theorems": [
    "Snmp.C100_partial",
    "Snmp.C100_false",
    "Snmp.C100_example"
   ],
   "note": "false of the code for 1.8... names (C98) and answers with OIDs 2.40 and above (C99_false, C100_false)"
  },
  {
   "property": "C101",
   "status": "partial",
   "theorems": [
    "Snmp.C101_partial",
    "Snmp.C101_false",
    "Snmp.C101_example"
   ],
   "note": "false as stated: C101_false gives a correct CBC-DES message that is refused on an OpenSSL back end that holds back the last block; object identifiers 2.40 and above are C99. Everything else is C101_partial."
  },
  {
   "property": "C102",
   "status": "partial",
   "theorems": [
    "Snmp.C102_read_partial",
    "Snmp.C102_unknown_partial",
    "Snmp.C102_known_partial",
    "Snmp.C102_wait_partial",
    "Snmp.C102_example",
    "Snmp.C101_false",
    "Snmp.C99_false"
   ],
   "note": "Proved for every agent that follows the standards except: DES on an OpenSSL that holds back the last block (C101_false), object identifiers 2.40 and above (C99_false); both are false of the code."
  },
  {
   "property": "C103",
   "status": "partial",
   "theorems": [
    "Snmp.C103_partial",
    "Snmp.C103_request_partial",
    "Snmp.C103_example",
    "Snmp.C103_request_example",
    "Snmp.C98_false",
    "Snmp.C90_false"
   ],
   "note": "Missing: object identifiers such as 1.8, encoded wrongly (C98_false), and the length of AES/DES ciphertext with OpenSSL (C90_false), where only PeerReads (the receiver recovers the message) is shown. Restricted to datagrams of at most 65535 octets, the most UDP carries."
  },
  {
   "property": "C104",
   "status": "partial",
   "theorems": [
    "Snmp.C104_contexts",
    "Snmp.C104_initialised",
    "Snmp.C104_alone",
    "Snmp.C104_decrypt_partial",
    "Snmp.C104_encrypt",
    "Snmp.C104_result",
    "Snmp.C104_result_encrypt",
    "Snmp.C104_false",
    "Snmp.C104_example",
    "Snmp.C104_initialised_example"
   ],
   "note": "Missing: DES decryption with a salt shorter than 8 bytes, where the C library reads beyond the IV (C104_false)."
  },
  {
   "property": "C105",
   "status": "partial",
   "theorems": [
    "Snmp.C105_partial",
    "Snmp.C105_round_partial",
    "Snmp.C105_stops_partial",
    "Snmp.C105_again",
    "Snmp.C105_false",
    "Snmp.C105_reconnect_false",
    "Snmp.C105_example"
   ],
   "note": "false of the code if a read raises, and for connecting again after shutdown; proved for all histories in which no read raises and nothing is connected after a shutdown (C105_again: repeated shutdown, no assumption)"
  },
  {
   "property": "C106",
   "status": "proved",
   "theorems": [
    "Snmp.C106_value",
    "Snmp.C106_constructed",
    "Snmp.C106_decoded",
    "Snmp.C106_distinct",
    "Snmp.C106_unambiguous"
   ],
   "note": "values, bindings, lists and PDUs; Value objects as the decoder and constructors leave them (bytes originals)"
  },
  {
   "property": "C107",
   "status": "proved",
   "theorems": [
    "Snmp.C107_distinct",
    "Snmp.C107_pdu",
    "Snmp.C107_lines",
    "Snmp.C107_total",
    "Snmp.C107_decoded"
   ],
   "note": ""
  },
  {
   "property": "C108",
   "status": "proved",
   "theorems": [
    "Snmp.C108_octet",
    "Snmp.C108_assign",
    "Snmp.C108_reachable"
   ],
   "note": ""
  },
  {
   "property": "C109",
   "status": "proved",
   "theorems": [
    "Snmp.ESys.C109_refines",
    "Snmp.ESys.C109_hear",
    "Snmp.ESys.C109_act",
    "Snmp.ESys.C109_registered",
    "Snmp.ESys.C109_namespace",
    "Snmp.ESys.C109_apart",
    "Snmp.ESys.C109_create",
    "Snmp.ESys.C109_create_refused",
    "Snmp.ESys.C109_released",
    "Snmp.ESys.C109_one",
    "Snmp.C109_example"
   ],
   "note": "a step of one manager is atomic for the others; races inside such a step are not modelled"
  },
  {
   "property": "C11",
   "status": "proved",
   "theorems": [
    "Snmp.C11_shortest",
    "Snmp.C11_roundtrip",
    "Snmp.C11_encodes"
   ],
   "note": ""
  },
  {
   "property": "C110",
   "status": "partial",
   "theorems": [
    "Snmp.C110_community_partial",
    "Snmp.C110_community_false",
    "Snmp.C110_community_example",
    "Snmp.C110_v3_partial",
    "Snmp.C110_v3_false",
    "Snmp.C110_v3_example"
   ],
   "note": "False of the code as stated: at the very instant at which it is due a request is resent until the clock moves on; proved with those retransmissions counted apart."
  },
  {
   "property": "C111",
   "status": "proved",
   "theorems": [
    "Snmp.C111_dict_oid",
    "Snmp.C111_dict_tag",
    "Snmp.C111_types",
    "Snmp.C111_oid_sequence",
    "Snmp.C111_varbinds_sequence",
    "Snmp.C111_oid_parts",
    "Snmp.C111_example"
   ],
   "note": "any hash of tuples, any table layout, any history"
  },
  {
   "property": "C112",
   "status": "proved",
   "theorems": [
    "Snmp.C112_calls",
    "Snmp.C112_returns",
    "Snmp.C112_configured",
    "Snmp.C112_monotone",
    "Snmp.C112_alone",
    "Snmp.C112_example",
    "Snmp.C112_accepted"
   ],
   "note": "The steps are the critical sections under userLock and timeLock; no lock is held across two. The users and the clock a call sees are of two moments of the call, which need not be the same moment (another thread may reconfigure in between): the calls are not serialisable in general, but each result is that of an undisturbed call on such a pair."
  },
  {
   "property": "C113",
   "status": "proved",
   "theorems": [
    "Snmp.C113_held",
    "Snmp.C113_waited",
    "Snmp.C113_dropped",
    "Snmp.C113_v3_held",
    "Snmp.C113_v3_ended",
    "Snmp.C113_v3_dropped",
    "Snmp.C113_example",
    "Snmp.C113_v3_example"
   ],
   "note": "for v3 the statement about the end of wait() is about that moment: if the end was an exception caused by the failed transmission of another request, a thread that waits on a third one may resend it, and then an ID is reserved for it again until its handle is dropped"
  },
  {
   "property": "C114",
   "status": "partial",
   "theorems": [
    "Snmp.C114_community",
    "Snmp.C114_partial",
    "Snmp.C114_false",
    "Snmp.C114_example"
   ],
   "note": "holds for v1/v2c; false of v3: the security module runs before the message is matched with a request, so each unauthenticated datagram that names a new engine adds a clock estimate, which is never removed (unbounded growth, C114_false); nothing else changes (C114_partial)"
  },
  {
   "property": "C115",
   "status": "partial",
   "theorems": [
    "Snmp.C115_community_partial",
    "Snmp.C115_community_alone",
    "Snmp.C115_community_false",
    "Snmp.C115_partial",
    "Snmp.C115_alone",
    "Snmp.C115_false",
    "Snmp.C115_example"
   ],
   "note": "False of the code: wait() on one request resends all requests of its manager and passes on whatever that raises (witnesses for v1/v2c and v3). Proved: the request whose transmission failed belongs to the same manager, is alive and (if it was being resent) unanswered, due and not over; if there is no other such request it is the one waited on."
  },
  {
   "property": "C116",
   "status": "proved",
   "theorems": [
    "Snmp.C116_messages",
    "Snmp.C116_v3",
    "Snmp.C116_parts",
    "Snmp.C116_header",
    "Snmp.C116_example"
   ],
   "note": "For PDUs whose OIDs survive (C91 is false of the others)."
  },
  {
   "property": "C117",
   "status": "partial",
   "theorems": [
    "Snmp.C117_community_partial",
    "Snmp.C117_community_false",
    "Snmp.C117_partial",
    "Snmp.C117_false",
    "Snmp.C117_example"
   ],
   "note": "False of the code: for every n there is a history after which no handle is left and the manager has n entries (v1/v2c: heap; v3: queue), as entries are removed only inside wait(). Proved: at most one entry for each request ever sent."
  },
  {
   "property": "C118",
   "status": "partial",
   "theorems": [
    "Snmp.C118_partial",
    "Snmp.C118_parts",
    "Snmp.C118_nested",
    "Snmp.C118_bulk",
    "Snmp.C118_false"
   ],
   "note": "False of the code for GetBulkRequestPDU (BulkPDU.toString omits the indentation of its first line): proved for everything that contains no bulk request (C118_partial, C118_parts, C118_nested), exactly what is missing for bulk requests (C118_bulk), and a message in which it shows (C118_false)."
  },
  {
   "property": "C119",
   "status": "partial",
   "theorems": [
    "Snmp.C119_partial",
    "Snmp.C119_false",
    "Snmp.C119_received",
    "Snmp.C119_example"
   ],
   "note": "False of SNMPv1/SNMPv2c messages, whose version is not printed (C119_false); proved for messages of one version and for everything else (C119_partial); every received message satisfies the hypotheses and can be printed (C119_received)."
  },
  {
   "property": "C12",
   "status": "proved",
   "theorems": [
    "Snmp.C12_local",
    "Snmp.C12_wire",
    "Snmp.C12_encodes",
    "Snmp.C12_roundtrip"
   ],
   "note": ""
  },
  {
   "property": "C120",
   "status": "proved",
   "theorems": [
    "Snmp.C120"
   ],
   "note": "For every well-formed slice (start <= stop <= length, which C01 shows every slice is)."
  },
  {
   "property": "C121",
   "status": "proved",
   "theorems": [
    "Snmp.C121",
    "Snmp.C121_distinct",
    "Snmp.C121_received",
    "Snmp.C121_received_usm",
    "Snmp.C121_example"
   ],
   "note": "hypotheses: the constructors accept the parts, and the payload that the flags call for is present (C121_received, C121_received_usm: everything that is decoded meets them); C121_example shows all forms of the text"
  },
  {
   "property": "C13",
   "status": "proved",
   "theorems": [
    "Snmp.C13_local",
    "Snmp.C13_wire",
    "Snmp.C13_position"
   ],
   "note": ""
  },
  {
   "property": "C14",
   "status": "partial",
   "theorems": [
    "Snmp.C14_partial",
    "Snmp.C14_encodes",
    "Snmp.C14_false"
   ],
   "note": "Exact characterisation of which OIDs survive; full statement is false of the code (witness 1.8)."
  },
  {
   "property": "C15",
   "status": "partial",
   "theorems": [
    "Snmp.C15_partial",
    "Snmp.C15_single_partial",
    "Snmp.C15_trailing_zeros",
    "Snmp.C15_false"
   ],
   "note": "False of the code for trailing 0x80 octets, which are ignored; proved for all other truncations."
  },
  {
   "property": "C16",
   "status": "proved",
   "theorems": [
    "Snmp.C16_local",
    "Snmp.C16_wire",
    "Snmp.C16_wire_limits",
    "Snmp.C16_extend",
    "Snmp.C17_total"
   ],
   "note": ""
  },
  {
   "property": "C17",
   "status": "proved",
   "theorems": [
    "Snmp.C17_roundtrip",
    "Snmp.C17_leading_dot",
    "Snmp.C17_injective",
    "Snmp.C17_refused",
    "Snmp.C17_total",
    "Snmp.C17_parse_iff",
    "Snmp.C17_pieces"
   ],
   "note": "ASCII text; Python's int() on other Unicode digits is not modelled. C17_parse_iff says exactly which text is accepted, and with which result."
  },
  {
   "property": "C18",
   "status": "partial",
   "theorems": [
    "Snmp.C18_partial",
    "Snmp.C18_getIndex_partial",
    "Snmp.C18_false"
   ],
   "note": "False of the code for IpAddress unless it is the implied last field."
  },
  {
   "property": "C19",
   "status": "partial",
   "theorems": [
    "Snmp.C19_partial",
    "Snmp.C19_getIndex_partial",
    "Snmp.C19_false"
   ],
   "note": "False of the code: RuntimeError / ValueError can escape; the theorem says exactly with which types."
  },
  {
   "property": "C20",
   "status": "proved",
   "theorems": [
    "Snmp.C20_roundtrip",
    "Snmp.C20_unknown_tag"
   ],
   "note": ""
  },
  {
   "property": "C21",
   "status": "proved",
   "theorems": [
    "Snmp.C21_list",
    "Snmp.C21_pdu",
    "Snmp.C21_encodes"
   ],
   "note": ""
  },
  {
   "property": "C22",
   "status": "partial",
   "theorems": [
    "Snmp.C22_partial",
    "Snmp.C22_refused_partial",
    "Snmp.C22_false"
   ],
   "note": "False of the code for a negative errorIndex with noError."
  },
  {
   "property": "C23",
   "status": "proved",
   "theorems": [
    "Snmp.C23_cause",
    "Snmp.C23_negative_false"
   ],
   "note": ""
  },
  {
   "property": "C24",
   "status": "proved",
   "theorems": [
    "Snmp.C24_roundtrip",
    "Snmp.C24_encodes",
    "Snmp.C24_other_version",
    "Snmp.C24_other_pdu",
    "Snmp.C24_classes"
   ],
   "note": "round trip for both versions and any table of PDU classes; encodability; refusals"
  },
  {
   "property": "C25",
   "status": "proved",
   "theorems": [
    "Snmp.C25_community",
    "Snmp.C25_version",
    "Snmp.C25_v3",
    "Snmp.C25_usm",
    "Snmp.C25_plaintext"
   ],
   "note": "all byte strings"
  },
  {
   "property": "C26",
   "status": "proved",
   "theorems": [
    "Snmp.C26_roundtrip",
    "Snmp.C26_usm"
   ],
   "note": "also: position of parameters and signature, and what replacing them yields"
  },
  {
   "property": "C27",
   "status": "proved",
   "theorems": [
    "Snmp.C27_accepted",
    "Snmp.C27_refused"
   ],
   "note": "acceptance implies the rules; each violation refused with its error, whatever follows"
  },
  {
   "property": "C28",
   "status": "proved",
   "theorems": [
    "Snmp.C28_range",
    "Snmp.C28_fresh",
    "Snmp.C28_unique",
    "Snmp.C28_attempts",
    "Snmp.C28_room"
   ],
   "note": "Any interleaving of atomic steps of any number of threads (PEvent). C28_attempts: failure exactly after ten unusable draws. C28_room: with at most four outstanding IDs an undisturbed allocation succeeds."
  },
  {
   "property": "C29",
   "status": "proved",
   "theorems": [
    "Snmp.C29_match",
    "Snmp.C29_refused",
    "Snmp.C29_others",
    "Snmp.C29_history"
   ],
   "note": "C29_match is the exact condition; C29_history the same for every history of concurrent steps."
  },
  {
   "property": "C30",
   "status": "proved",
   "theorems": [
    "Snmp.C30_released",
    "Snmp.C30_late",
    "Snmp.C30_stays_closed",
    "Snmp.C30_persists",
    "Snmp.C30_resend",
    "Snmp.C30_send"
   ],
   "note": "C30_persists excludes one race of the code by hypothesis: a receiver thread that has found a collected handle calls uncache(id) later, and removes a newer request if the same ID was handed out in between (which takes a full cycle of the generator)."
  },
  {
   "property": "C31",
   "status": "proved",
   "theorems": [
    "Snmp.C31_range",
    "Snmp.C31_room",
    "Snmp.C28_fresh",
    "Snmp.C28_unique",
    "Snmp.C28_attempts",
    "Snmp.C31_allocated"
   ],
   "note": "C28_* are stated for any processor (Proto), hence for v3Proto."
  },
  {
   "property": "C32",
   "status": "proved",
   "theorems": [
    "Snmp.C32_match",
    "Snmp.C32_unchanged",
    "Snmp.C32_history"
   ],
   "note": "Sequential iff and every concurrent history."
  },
  {
   "property": "C33",
   "status": "partial",
   "theorems": [
    "Snmp.C33_partial",
    "Snmp.C33_authentic_partial",
    "Snmp.C33_configured_partial",
    "Snmp.C33_delivered",
    "Snmp.C33_false",
    "Snmp.C33_example"
   ],
   "note": "Proved except for messages naming neither an engine nor a user (responses to the discovery message); C33_false is a run where such a forged message completes an authenticated request."
  },
  {
   "property": "C34",
   "status": "proved",
   "theorems": [
    "Snmp.C34_construct",
    "Snmp.C34_order",
    "Snmp.C34_constants",
    "Snmp.C34_decode",
    "Snmp.C34_flags"
   ],
   "note": ""
  },
  {
   "property": "C35",
   "status": "proved",
   "theorems": [
    "Snmp.C35_window",
    "Snmp.C35_estimate"
   ],
   "note": ""
  },
  {
   "property": "C36",
   "status": "proved",
   "theorems": [
    "Snmp.C36_monotone",
    "Snmp.C36_hint",
    "Snmp.C36_isolated"
   ],
   "note": "Monotonicity assumes boots at most 2^31-1, which decoding guarantees."
  },
  {
   "property": "C37",
   "status": "partial",
   "theorems": [
    "Snmp.C37_partial",
    "Snmp.C37_false",
    "Snmp.request_sent"
   ],
   "note": "Full statement is false of the code (C37_false: one unauthenticated report with engine time 2^31-1 makes the next authenticated request raise ValueError). C37_partial: with any history, if the engine's current boots/time estimate is within 0..2^31-1 the request is produced."
  },
  {
   "property": "C38",
   "status": "proved",
   "theorems": [
    "Snmp.C38_lookup",
    "Snmp.C38_results"
   ],
   "note": "Refinement of a specification without reference counts or dictionaries; salts of localised privacy objects are not constrained."
  },
  {
   "property": "C39",
   "status": "proved",
   "theorems": [
    "Snmp.C39_register",
    "Snmp.C39_held",
    "Snmp.C39_last",
    "Snmp.C39_refused"
   ],
   "note": ""
  },
  {
   "property": "C40",
   "status": "proved",
   "theorems": [
    "Snmp.C40_getDefaultUser",
    "Snmp.C40_getDefaultSecurityLevel",
    "Snmp.C40_collision",
    "Snmp.C40_unchanged",
    "Snmp.C40_readd",
    "Snmp.C40_default",
    "Snmp.C40_permanent",
    "Snmp.C40_queries"
   ],
   "note": ""
  },
  {
   "property": "C41",
   "status": "proved",
   "theorems": [
    "Snmp.C41_bounded",
    "Snmp.C41_set",
    "Snmp.C41_unsupported"
   ],
   "note": ""
  },
  {
   "property": "C42",
   "status": "proved",
   "theorems": [
    "Snmp.C42_stretch",
    "Snmp.C42_localize"
   ],
   "note": ""
  },
  {
   "property": "C43",
   "status": "proved",
   "theorems": [
    "Snmp.C43_authentic",
    "Snmp.C43_configured",
    "Snmp.request_received"
   ],
   "note": "for every byte string, every module state (C43_authentic) and every history of configuration, sends and receives (C43_configured)"
  },
  {
   "property": "C44",
   "status": "partial",
   "theorems": [
    "Snmp.C44_signed",
    "Snmp.C44_peer",
    "Snmp.request_received",
    "Snmp.C44_length"
   ],
   "note": "C44_signed is the complete first half. C44_peer is the second half for every history and pair of back ends except one: DES-CBC encrypted by PyCryptodome and decrypted by an OpenSSL whose EVP_DecryptUpdate holds back the last block, where the code fails (see C45)."
  },
  {
   "property": "C45",
   "status": "partial",
   "theorems": [
    "Snmp.C45_bytes_partial",
    "Snmp.C45_partial",
    "Snmp.C45_false"
   ],
   "note": "Proved for AES in all combinations and DES except PyCryptodome-encrypted input decrypted by an OpenSSL that holds back the last block; C45_false is the failing case of the full claim."
  },
  {
   "property": "C46",
   "status": "proved",
   "theorems": [
    "Snmp.C46_salts",
    "Snmp.C46_wraps",
    "Snmp.C46_iv",
    "Snmp.C46_ivs",
    "Snmp.C46_module"
   ],
   "note": ""
  },
  {
   "property": "C47",
   "status": "partial",
   "theorems": [
    "Snmp.C47_partial",
    "Snmp.C47_false"
   ],
   "note": "Outgoing IVs, and incoming AES IVs, are one full block; C47_false: a short DES salt gives a short IV."
  },
  {
   "property": "C48",
   "status": "proved",
   "theorems": [
    "Snmp.C48_community",
    "Snmp.C48_community_schedule"
   ],
   "note": "For all histories, clocks and failures."
  },
  {
   "property": "C49",
   "status": "partial",
   "theorems": [
    "Snmp.C49_partial",
    "Snmp.C49_delivered_partial",
    "Snmp.C49_false"
   ],
   "note": "Outcome comes from an answering datagram / Timeout only past expiration; the last part is false of the code (C49_false) and proved for handles not waited on after expiration."
  },
  {
   "property": "C50",
   "status": "partial",
   "theorems": [
    "Snmp.C50_partial",
    "Snmp.C50_false"
   ],
   "note": "Every finite sleep ends by a pending request's expiration; sleeping without limit is possible (C50_false)."
  },
  {
   "property": "C51",
   "status": "partial",
   "theorems": [
    "Snmp.C51_partial",
    "Snmp.C51_partial_sleep",
    "Snmp.C51_example",
    "Snmp.C51_false"
   ],
   "note": "False of the code in general (C51_false). Proved: the first item of the heap has the least refresh time, and no thread sleeps past a pending refresh time, while all requests have the same refresh period, the clock does not run backwards, no send fails and no handle is collected. Missing: different refresh periods (false)."
  },
  {
   "property": "C52",
   "status": "proved",
   "theorems": [
    "Snmp.C52_engineID",
    "Snmp.C52_example"
   ],
   "note": "For every history, after an authenticated response was delivered, the state stays RequireAuthentication and the engine ID changes only by an authenticated response (or when the manager is dropped)."
  },
  {
   "property": "C53",
   "status": "proved",
   "theorems": [
    "Snmp.C53_counts",
    "Snmp.C53_others",
    "Snmp.C53_released",
    "Snmp.C53_example",
    "Snmp.C53_others_example"
   ],
   "note": "Counts after every history of a manager on a security module with any earlier history, used by other managers of the engine at the same time: what the others hold plus the manager's own; once the manager is collected only what the others hold remains."
  },
  {
   "property": "C54",
   "status": "partial",
   "theorems": [
    "Snmp.C54_partial",
    "Snmp.C54_once",
    "Snmp.C54_queue",
    "Snmp.C54_order",
    "Snmp.C54_flushed",
    "Snmp.C54_false",
    "Snmp.C54_example",
    "Snmp.C54_order_example"
   ],
   "note": "Every live unanswered request is scheduled or queued, never twice or both, unless it was seen overdue or failed; the queue is in order of issue and is sent in that order when discovery completes. Missing because false of the code (C54_false): a request behind one whose sending in poke() raised is forgotten."
  },
  {
   "property": "C55",
   "status": "partial",
   "theorems": [
    "Snmp.C55_partial",
    "Snmp.C55_false",
    "Snmp.C55_example"
   ],
   "note": "Proved for histories in which no send raised an exception; C55_false is a run where an exception while flushing the queue makes the same message trigger twice."
  },
  {
   "property": "C56",
   "status": "proved",
   "theorems": [
    "Snmp.C56_unauthenticated",
    "Snmp.C56_authenticated",
    "Snmp.C56_outcome",
    "Snmp.C56_example",
    "Snmp.C56_example_authenticated",
    "Snmp.C56_class",
    "Snmp.C56_raised"
   ],
   "note": "For every history of a new manager."
  },
  {
   "property": "C57",
   "status": "proved",
   "theorems": [
    "Snmp.C57_survives",
    "Snmp.C57_ignored",
    "Snmp.C57_routed",
    "Snmp.C57_isolated"
   ],
   "note": "For arbitrary processors (C57_survives, C57_ignored, C57_routed) and for an engine with any number of v1 and v2c managers and a v3 manager (C57_isolated)."
  },
  {
   "property": "C58",
   "status": "partial",
   "theorems": [
    "Snmp.C58_false",
    "Snmp.C58_ignored"
   ],
   "note": "False of the code: hear never looks at the source. C58_ignored: the outcome is the same from any address and socket; C58_false: a request sent to one address completed by a datagram from another."
  },
  {
   "property": "C59",
   "status": "proved",
   "theorems": [
    "Snmp.C59_asked",
    "Snmp.C59_other",
    "Snmp.C59_idempotent"
   ],
   "note": "Idempotence assumes inet_pton refuses the empty string."
  },
  {
   "property": "C60",
   "status": "partial",
   "theorems": [
    "Snmp.C60_posix_partial",
    "Snmp.C60_generic_partial",
    "Snmp.C60_false",
    "Snmp.C60_generic_none"
   ],
   "note": "Holds for both multiplexors as long as no read raises; C60_false: a read that raises ends the loop."
  },
  {
   "property": "C61",
   "status": "proved",
   "theorems": [
    "Snmp.C61_unique",
    "Snmp.C61_transport",
    "Snmp.C61_config",
    "Snmp.C61_processors"
   ],
   "note": "Over any history of Manager, connectTransport and addUser calls; transports given to connectTransport are the subject of C75."
  },
  {
   "property": "C62",
   "status": "partial",
   "theorems": [
    "Snmp.C62_partial",
    "Snmp.C62_false"
   ],
   "note": "Distinct when encryptions do not overlap; C62_false: two overlapping threads reuse a salt."
  },
  {
   "property": "C63",
   "status": "proved",
   "theorems": [
    "Snmp.C63_identical"
   ],
   "note": ""
  },
  {
   "property": "C64",
   "status": "partial",
   "theorems": [
    "Snmp.C64_partial",
    "Snmp.C64_example",
    "Snmp.C64_managers",
    "Snmp.C64_false"
   ],
   "note": "False of the code (IndexError). Proved: exactly which exceptions can end wait() and what each of them requires; IndexError requires two threads inside wait(). Missing: several threads (false)."
  },
  {
   "property": "C65",
   "status": "partial",
   "theorems": [
    "Snmp.C65_partial",
    "Snmp.C65_false"
   ],
   "note": "False of the code (AssertionError). Proved: at most one wait() on a request ever gives a result, so results never disagree."
  },
  {
   "property": "C66",
   "status": "partial",
   "theorems": [
    "Snmp.C66_partial",
    "Snmp.C84_delivered",
    "Snmp.C66_false"
   ],
   "note": "False of v1/v2c for a PDU that was sent before. Proved for PDUs whose request ID is 0."
  },
  {
   "property": "C67",
   "status": "partial",
   "theorems": [
    "Snmp.C67_partial",
    "Snmp.C67_schedule_partial",
    "Snmp.C67_false",
    "Snmp.C67_example"
   ],
   "note": "Timer-driven sends: due, unexpired, unanswered, on the period grid, capped; every other occasion for a send is listed, with the refresh time after it. Missing because false of the code (C67_false): sends caused by reports happen after expiration and after the answer."
  },
  {
   "property": "C68",
   "status": "proved",
   "theorems": [
    "Snmp.C68_faithful",
    "Snmp.C68_delivered",
    "Snmp.C68_example"
   ],
   "note": "For every history of a new manager on a security module with any earlier history."
  },
  {
   "property": "C69",
   "status": "proved",
   "theorems": [
    "Snmp.C69_sleep"
   ],
   "note": ""
  },
  {
   "property": "C70",
   "status": "partial",
   "theorems": [
    "Snmp.C70_partial",
    "Snmp.C70_sleep_partial",
    "Snmp.C70_dead",
    "Snmp.C70_false",
    "Snmp.C70_example"
   ],
   "note": "Proved as long as no send has raised an exception in a state where the heap is being refreshed; C70_false is a run where the property fails after a send raised."
  },
  {
   "property": "C71",
   "status": "proved",
   "theorems": [
    "Snmp.C71_threads",
    "Snmp.C71_example"
   ],
   "note": "For all interleavings of any number of threads."
  },
  {
   "property": "C72",
   "status": "partial",
   "theorems": [
    "Snmp.C72_partial",
    "Snmp.C72_false"
   ],
   "note": "Once the request is complete every later wait gives the same outcome (except exceptions of sends, and a thread that had already found it incomplete). Missing because false of the code (C72_false): Timeout, then bindings."
  },
  {
   "property": "C73",
   "status": "partial",
   "theorems": [
    "Snmp.C73_partial",
    "Snmp.C73_stops_partial",
    "Snmp.C73_registered_partial",
    "Snmp.C73_false"
   ],
   "note": "Holds if no read raises, for one thread calling connectTransport and shutdown; C73_false is the run with a read that raises."
  },
  {
   "property": "C74",
   "status": "partial",
   "theorems": [
    "Snmp.C74_partial",
    "Snmp.C74_false"
   ],
   "note": "First shutdown proved if no read raises; C74_false: the second raises OSError."
  },
  {
   "property": "C75",
   "status": "partial",
   "theorems": [
    "Snmp.C75_partial",
    "Snmp.C75_false"
   ],
   "note": "A second transport is refused for ever (proved); C75_false: Manager does not use the transport given."
  },
  {
   "property": "C76",
   "status": "partial",
   "theorems": [
    "Snmp.C76_partial",
    "Snmp.C76_false"
   ],
   "note": "One of NoDefaultUser and ValueError is raised (proved); C76_false: a new engine raises ValueError."
  },
  {
   "property": "C77",
   "status": "partial",
   "theorems": [
    "Snmp.C77_partial",
    "Snmp.C77_false"
   ],
   "note": "Proved for addresses and for the exception of an unknown version; C77_false: unsupported domain, and the socket left open."
  },
  {
   "property": "C78",
   "status": "proved",
   "theorems": [
    "Snmp.C78",
    "Snmp.C78_protected",
    "Snmp.C31_allocated",
    "Snmp.confirmed_iff"
   ],
   "note": "composition of message processor and security module, decoded again"
  },
  {
   "property": "C79",
   "status": "proved",
   "theorems": [
    "Snmp.C79_wire",
    "Snmp.C79_step",
    "Snmp.C79_example"
   ],
   "note": "For every history of a v3 manager; hypotheses: randint results in range, sendable PDUs, no privacy without authentication, maxSize at least 484. C79_step: a step sends at most one datagram, and which of the two kinds it is, and to which engine, is what the request's engine ID says"
  },
  {
   "property": "C80",
   "status": "proved",
   "theorems": [
    "Snmp.C80_hold_unknown",
    "Snmp.C80_hold_known",
    "Snmp.C80_unauthenticated",
    "Snmp.C80_probe",
    "Snmp.C80_discovered"
   ],
   "note": "examples C80_example_*; while the lock is held by another thread sendRequest has not begun"
  },
  {
   "property": "C81",
   "status": "partial",
   "theorems": [
    "Snmp.C81_partial",
    "Snmp.C81_false"
   ],
   "note": "proved for discovery completed by a report (no failing send meanwhile); false of the code for discovery completed by a response (C81_false)"
  },
  {
   "property": "C82",
   "status": "proved",
   "theorems": [
    "Snmp.C82_range",
    "Snmp.C82_distinct",
    "Snmp.C82_example"
   ],
   "note": "the draws of random.randint are assumed in range"
  },
  {
   "property": "C83",
   "status": "proved",
   "theorems": [
    "Snmp.C83_namespace",
    "Snmp.C83_example"
   ],
   "note": "managers are never garbage-collected in the engine model"
  },
  {
   "property": "C84",
   "status": "proved",
   "theorems": [
    "Snmp.C84_delivered",
    "Snmp.C84_wait",
    "Snmp.C84_example"
   ],
   "note": "Pending is stated from the history: created by sendRequest from a PDU without ID, not collected, no wait ended with a result."
  },
  {
   "property": "C85",
   "status": "proved",
   "theorems": [
    "Snmp.C85_answered",
    "Snmp.C85_timeout",
    "Snmp.C85_example"
   ],
   "note": "v1 and v2c; the exception of another request's failed retransmission ends a wait without ending its request, so that outcome is excluded"
  },
  {
   "property": "C86",
   "status": "partial",
   "theorems": [
    "Snmp.C86_community_partial",
    "Snmp.C86_v3_partial",
    "Snmp.C86_community_refused",
    "Snmp.C86_v3_refused",
    "Snmp.C86_community_few",
    "Snmp.C86_pdu",
    "Snmp.C86_errors",
    "Snmp.C86_false",
    "Snmp.C86_example",
    "Snmp.C86_v3_example"
   ],
   "note": "Proved for names that survive encoding (first octet, see C14); C86_false: get(\"1.8.1\") asks for 1.0.1. C86_*_refused: a bad name raises ValueError and nothing happens. The v3 theorem bounds everything that is ever sent; that the datagram does leave is C80/C81."
  },
  {
   "property": "C87",
   "status": "proved",
   "theorems": [
    "Snmp.C87_heard",
    "Snmp.C87_delivered",
    "Snmp.C87_wait",
    "Snmp.C87_example"
   ],
   "note": "C87_heard has no condition on the manager's state; C87_delivered and C87_wait take as hypothesis that the lock is free and that the manager does not refuse the response with an exception (see C88 for when it does not)."
  },
  {
   "property": "C88",
   "status": "partial",
   "theorems": [
    "Snmp.C88_partial",
    "Snmp.C88_discovery",
    "Snmp.C88_synchronization",
    "Snmp.C88_wait",
    "Snmp.C88_example",
    "Snmp.C88_false",
    "Snmp.C88_false_discovery"
   ],
   "note": "The full statement is false of the code (C88_false: a race between two threads in wait() and a send; C88_false_discovery: a single failed transmission during discovery). Proved when calls do not overlap (any listener activity) for a manager created with an engine ID, and for every interleaving once discovery is complete; C88_wait combines it with C87 end to end."
  },
  {
   "property": "C89",
   "status": "proved",
   "theorems": [
    "Snmp.C89_accepted",
    "Snmp.C89_example"
   ],
   "note": "both directions (iff); example meets the hypotheses"
  },
  {
   "property": "C90",
   "status": "partial",
   "theorems": [
    "Snmp.C90_receives_partial",
    "Snmp.C90_scoped_partial",
    "Snmp.C90_sends_partial",
    "Snmp.C90_false",
    "Snmp.C90_example"
   ],
   "note": "missing: DES on an OpenSSL that holds the last block back, and the size of AES ciphertext with OpenSSL (both false, C90_false)"
  },
  {
   "property": "C91",
   "status": "partial",
   "theorems": [
    "Snmp.C91_values_partial",
    "Snmp.C91_bindings_partial",
    "Snmp.C91_pdus_partial",
    "Snmp.C91_values_equivalence",
    "Snmp.C91_false",
    "Snmp.C91_example"
   ],
   "note": "missing: OIDs that do not survive encoding, PDUs that cannot be sent (false, C91_false)"
  },
  {
   "property": "C92",
   "status": "proved",
   "theorems": [
    "Snmp.C92_order",
    "Snmp.C92_total",
    "Snmp.C92_trans",
    "Snmp.C92_subtree",
    "Snmp.C92_example"
   ],
   "note": ""
  },
  {
   "property": "C93",
   "status": "partial",
   "theorems": [
    "Snmp.C93_v3",
    "Snmp.C93_v3_example",
    "Snmp.C93_community_partial",
    "Snmp.C93_community_false",
    "Snmp.C93_community_example"
   ],
   "note": "v3 proved; v1/v2c: every wait ends or sleeps without a timeout, and the latter happens (C93_community_false)"
  },
  {
   "property": "C94",
   "status": "proved",
   "theorems": [
    "Snmp.C94_unknown",
    "Snmp.C94_known",
    "Snmp.C94_example"
   ],
   "note": "End to end for the first request of a manager. Hypotheses: the thread sleeps before the first refresh, no send raises an exception, randint in range; all met by C94_example, which runs discovery, time synchronisation and response."
  },
  {
   "property": "C95",
   "status": "proved",
   "theorems": [
    "Snmp.C95_untouched",
    "Snmp.C95_pending",
    "Snmp.C95_example"
   ],
   "note": "v1 and v2c; the v3 model has one manager."
  },
  {
   "property": "C96",
   "status": "proved",
   "theorems": [
    "Snmp.C96_registered",
    "Snmp.C96_refused",
    "Snmp.C96_sent",
    "Snmp.C96_example"
   ],
   "note": "For arbitrary processors."
  },
  {
   "property": "C97",
   "status": "proved",
   "theorems": [
    "Snmp.C97_keys",
    "Snmp.C97_empty"
   ],
   "note": "The hash functions are parameters (Crypto.Ok: digest lengths)."
  },
  {
   "property": "C98",
   "status": "partial",
   "theorems": [
    "Snmp.C98_value_partial",
    "Snmp.C98_message_partial",
    "Snmp.C98_v3_partial",
    "Snmp.C98_usm",
    "Snmp.C98_false"
   ],
   "note": "Partial because the full statement is false of the code: an object identifier such as 1.8 is encoded as 1.0 (C14), and one with fewer than two numbers has no encoding in X.690. Proved for everything else."
  },
  {
   "property": "C99",
   "status": "partial",
   "theorems": [
    "Snmp.C99_message_partial",
    "Snmp.C99_v3_partial",
    "Snmp.C99_plaintext_partial",
    "Snmp.C99_usm",
    "Snmp.C99_false"
   ],
   "note": "Partial because the full statement is false of the code: the first octet of an object identifier is always split by 40, so 2.40 and above are refused. Proved for every other object."
  }
 ]
}