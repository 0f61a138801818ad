{
 "claims": [
  {
   "property": "C01",
   "status": "proved",
   "theorems": [
    "Frpc.C01_response_roundtrip",
    "Frpc.C01_response_only_dates_change"
   ],
   "note": "For protocol >= 2, sizes below 2^30 (larger ones: C08); dates restricted to what the format carries, second theorem for any date."
  },
  {
   "property": "C02",
   "status": "proved",
   "theorems": [
    "Frpc.C02_call_roundtrip",
    "Frpc.C02_call_only_dates_change"
   ],
   "note": ""
  },
  {
   "property": "C03",
   "status": "proved",
   "theorems": [
    "Frpc.C03_fault_roundtrip",
    "Frpc.C03_late_fault",
    "Frpc.C03_late_fault_extended"
   ],
   "note": "An empty message is replaced by the library's default text. A fault is raised also when a value came before it."
  },
  {
   "property": "C04",
   "status": "proved",
   "theorems": [
    "Frpc.BinUnMarshaller.C04_chunking",
    "Frpc.BinUnMarshaller.C04_chunking_finish",
    "Frpc.BinUnMarshaller.C04_any_builder"
   ],
   "note": ""
  },
  {
   "property": "C05",
   "status": "proved",
   "theorems": [
    "Frpc.C05_int64"
   ],
   "note": ""
  },
  {
   "property": "C06",
   "status": "partial",
   "theorems": [
    "Frpc.C06_partial",
    "Frpc.C06_violated"
   ],
   "note": "The code violates the full property: negative integers and integers above 32 bits are silently changed."
  },
  {
   "property": "C07",
   "status": "proved",
   "theorems": [
    "Frpc.C07_double_bits"
   ],
   "note": ""
  },
  {
   "property": "C08",
   "status": "partial",
   "theorems": [
    "Frpc.C08_strings_exact",
    "Frpc.C08_long_rejected",
    "Frpc.C08_violated"
   ],
   "note": "The code violates the full property from 2^32 bytes on (size truncated to 32 bits); below that it is proved."
  },
  {
   "property": "C09",
   "status": "partial",
   "theorems": [
    "Frpc.C09_partial",
    "Frpc.C09_violated"
   ],
   "note": "The code violates the full property for years 2624..3647."
  },
  {
   "property": "C10",
   "status": "partial",
   "theorems": [
    "Frpc.C10_partial",
    "Frpc.C10_violated"
   ],
   "note": "The code violates the full property for magnitudes 2^31..2^32-1."
  },
  {
   "property": "C11",
   "status": "partial",
   "theorems": [
    "Frpc.BinUnMarshaller.C11_complete_partial",
    "Frpc.BinUnMarshaller.C11_violated"
   ],
   "note": "The code violates the full property: response without value, fault without code/message."
  },
  {
   "property": "C12",
   "status": "proved",
   "theorems": [
    "Frpc.BinUnMarshaller.C12_no_undefined_behaviour",
    "Frpc.C12_receiver"
   ],
   "note": "C12_no_undefined_behaviour for any builder; C12_receiver for the unmarshaller with the tree builder and finish"
  },
  {
   "property": "C13",
   "status": "proved",
   "theorems": [
    "Frpc.BinUnMarshaller.C13_linear_work",
    "Frpc.BinUnMarshaller.C13_terminates"
   ],
   "note": ""
  },
  {
   "property": "C14",
   "status": "proved",
   "theorems": [
    "Frpc.BinUnMarshaller.C14_well_nested"
   ],
   "note": ""
  },
  {
   "property": "C15",
   "status": "proved",
   "theorems": [
    "Frpc.BinUnMarshaller.C15_bad_header",
    "Frpc.BinUnMarshaller.C15_short_header"
   ],
   "note": ""
  },
  {
   "property": "C16",
   "status": "proved",
   "theorems": [
    "Frpc.BinUnMarshaller.C16_calls_only",
    "Frpc.BinUnMarshaller.C16_responses_only"
   ],
   "note": ""
  },
  {
   "property": "C17",
   "status": "proved",
   "theorems": [
    "Frpc.C17_null_refused",
    "Frpc.C17_null_roundtrip",
    "Frpc.C17_null_not_in_v1"
   ],
   "note": ""
  },
  {
   "property": "C18",
   "status": "proved",
   "theorems": [
    "Frpc.BinUnMarshaller.C18_limited"
   ],
   "note": ""
  },
  {
   "property": "C19",
   "status": "proved",
   "theorems": [
    "Frpc.C19_marshaller",
    "Frpc.C19_empty_method_rejected",
    "Frpc.C19_empty_member_rejected",
    "Frpc.C19_delivered"
   ],
   "note": ""
  },
  {
   "property": "C20",
   "status": "proved",
   "theorems": [
    "Frpc.C20_unambiguous",
    "Frpc.C20_injective"
   ],
   "note": "Protocol >= 2; dates the format can carry (others are lossy)."
  },
  {
   "property": "C21",
   "status": "proved",
   "theorems": [
    "Frpc.C21_sizes",
    "Frpc.C21_integers"
   ],
   "note": ""
  },
  {
   "property": "C22",
   "status": "proved",
   "theorems": [
    "Frpc.C22_writer",
    "Frpc.C22_alphabet"
   ],
   "note": ""
  },
  {
   "property": "C23",
   "status": "proved",
   "theorems": [
    "Frpc.C23_decode",
    "Frpc.C23_decode_once"
   ],
   "note": "C23_after_padding_depends_on_pieces records that text after a padded quad is treated differently depending on the pieces."
  },
  {
   "property": "C24",
   "status": "proved",
   "theorems": [
    "Frpc.C24_body",
    "Frpc.C24_decodes"
   ],
   "note": ""
  },
  {
   "property": "C25",
   "status": "proved",
   "theorems": [
    "Frpc.C25_transport",
    "Frpc.C25_response"
   ],
   "note": ""
  },
  {
   "property": "C26",
   "status": "proved",
   "theorems": [
    "Frpc.C26_value",
    "Frpc.C26_integers",
    "Frpc.C26_fault",
    "Frpc.C26_call",
    "Frpc.C26_nonfinite"
   ],
   "note": "The text of a double is a parameter, assumed to be a JSON number (it is for finite doubles); C26_nonfinite shows the limit."
  },
  {
   "property": "C27",
   "status": "proved",
   "theorems": [
    "Frpc.C27_quote"
   ],
   "note": ""
  },
  {
   "property": "C28",
   "status": "proved",
   "theorems": [
    "Frpc.C28_quote"
   ],
   "note": "Text and names are escaped so that no markup can be injected; unescaping (an independent reader of entities) gives the original bytes."
  },
  {
   "property": "C29",
   "status": "proved",
   "theorems": [
    "Frpc.C29_document",
    "Frpc.C29_document_xml",
    "Frpc.C29_refused"
   ],
   "note": "Every call/response/fault is written as one well-formed document (independent grammar in Spec/Xml) with the XML-RPC structure of the message (Spec/XmlRpc). Ranges where the marshaller refuses (or hits UB, INT64_MIN) are stated by C29_refused."
  },
  {
   "property": "C30",
   "status": "partial",
   "theorems": [
    "Frpc.C30_interoperation",
    "Frpc.C30_response_partial",
    "Frpc.C30_response_same_partial",
    "Frpc.C30_call_partial",
    "Frpc.C30_fault_partial",
    "Frpc.C30_cr_violated",
    "Frpc.C30_control_violated",
    "Frpc.C30_late_mark_violated",
    "Frpc.XmlParser.eager_conforms"
   ],
   "note": "For every parser that conforms to a specification of the XML documents concerned (Spec.Xml.Conforms, with a parser that meets it), every cutting into pieces and every tree whose leaves XML can carry, the tree comes back (calls, responses, faults); and any document of XML-RPC gives the builder exactly the calls of its message. False in full: CR comes back as LF, control characters are written although XML has none, the week day and time stamp are not in the text, a version mark at bytes 61-63 raises an unrelated error. The SAX parser (libxml2), strtod and the printing of doubles are parameters."
  },
  {
   "property": "C31",
   "status": "proved",
   "theorems": [
    "Frpc.C31_iso_roundtrip"
   ],
   "note": "All four-digit years, two-digit parts, whole-minute zones below 100h."
  },
  {
   "property": "C32",
   "status": "proved",
   "theorems": [
    "Frpc.C32_iso_total"
   ],
   "note": "Position-based parser, out-of-range read is an error value proved unreachable."
  },
  {
   "property": "C33",
   "status": "partial",
   "theorems": [
    "Frpc.C33_decode_inverts_encode_partial",
    "Frpc.C33_decode_bounded_partial",
    "Frpc.C33_violated"
   ],
   "note": "False as stated: a lone trailing % makes the decoder read past the end of the string. Proved: decoding inverts every percent-encoding; outputs never longer; only inputs ending in % have no result."
  },
  {
   "property": "C34",
   "status": "partial",
   "theorems": [
    "Frpc.C34_splitting",
    "Frpc.C34_shape_partial",
    "Frpc.C34_request_partial",
    "Frpc.C34_violated",
    "Frpc.C34_method_name",
    "Frpc.C34_tree_partial",
    "Frpc.C34_refused_partial",
    "Frpc.C34_loose_violated"
   ],
   "note": "Splitting independence holds for all inputs. False as stated: 'a' and 'a[]' both build member a; an empty value builds a member without a value. Proved: exact builder calls of every well-formed request; shape of every accepted one. C34_tree_partial: a well-formed form gives the method exactly one struct, the unique one of the specification. Values that begin like none, and strings not ended, are refused for every request; that every malformed value is refused is false (`truth` is false, `nonsense` is null)."
  },
  {
   "property": "C35",
   "status": "partial",
   "theorems": [
    "Frpc.C35_compare_partial",
    "Frpc.C35_scalars_partial",
    "Frpc.C35_violated"
   ],
   "note": "Full order on NaN-free trees proved; NaN breaks transitivity (C35_violated)."
  },
  {
   "property": "C36",
   "status": "proved",
   "theorems": [
    "Frpc.C36_struct_is_map"
   ],
   "note": "All histories from the empty struct, against an independent finite-map spec."
  },
  {
   "property": "C37",
   "status": "proved",
   "theorems": [
    "Frpc.C37_array_is_sequence"
   ],
   "note": "All histories from the empty array."
  },
  {
   "property": "C38",
   "status": "proved",
   "theorems": [
    "Frpc.C38_checkItems"
   ],
   "note": "All formats of the documented letters with optional '?', all arrays."
  },
  {
   "property": "C39",
   "status": "partial",
   "theorems": [
    "Frpc.C39_clone_partial",
    "Frpc.C39_violated"
   ],
   "note": "Default date-time validation rewrites unixTime/weekDay when cloning (C39_violated); identity proved where validation leaves the tree alone."
  },
  {
   "property": "C40",
   "status": "proved",
   "theorems": [
    "Frpc.C40_header_multimap",
    "Frpc.C40_remove_result",
    "Frpc.C40_append_value"
   ],
   "note": "All histories; letters as in the C locale; fewer than 2^32 fields per name."
  },
  {
   "property": "C41",
   "status": "proved",
   "theorems": [
    "Frpc.C41_chunked_read",
    "Frpc.C41_chunked_sent",
    "Frpc.C41_chunked_roundtrip",
    "Frpc.C41_binary_first_write",
    "Frpc.C41_sent_prefix",
    "Frpc.C41_body_framing"
   ],
   "note": "chunked output and input, any writes, any segmentation, any send errors; the coding name in any letter case"
  },
  {
   "property": "C42",
   "status": "partial",
   "theorems": [
    "Frpc.C42_content_length_partial",
    "Frpc.C42_content_length_violated"
   ],
   "note": "below 4 GiB; false above: the length is an unsigned int"
  },
  {
   "property": "C43",
   "status": "partial",
   "theorems": [
    "Frpc.C43_body_limit_partial",
    "Frpc.C43_body_limit_buffer_partial",
    "Frpc.C43_body_limit_violated"
   ],
   "note": "False for bodies that end with the connection (overshoot below one 64 KiB buffer); proved for Content-Length and chunked framing."
  },
  {
   "property": "C44",
   "status": "partial",
   "theorems": [
    "Frpc.C44_line_sound",
    "Frpc.C44_line_unique",
    "Frpc.C44_line_segmentation",
    "Frpc.C44_line_missing",
    "Frpc.C44_late_violated"
   ],
   "note": "Any schedule of segments and timeouts; lines with LF, without LF, limit on and off. False for lines that may be missing (request line of the server, trailer): a timeout within one drops what has come of it."
  },
  {
   "property": "C45",
   "status": "proved",
   "theorems": [
    "Frpc.C45_block_sound",
    "Frpc.C45_block_segmentation"
   ],
   "note": "Any segmentation, timeouts and sink failures for soundness."
  },
  {
   "property": "C46",
   "status": "partial",
   "theorems": [
    "Frpc.C46_keepalive_bound_partial",
    "Frpc.C46_keepalive_off",
    "Frpc.C46_stops",
    "Frpc.C46_keepalive_violated"
   ],
   "note": "bound proved for requests that parse; false for others, which are answered and not counted"
  },
  {
   "property": "C47",
   "status": "proved",
   "theorems": [
    "Frpc.C47_dispatch",
    "Frpc.C47_wire"
   ],
   "note": "Any registration history; codes in process and on the wire."
  },
  {
   "property": "C48",
   "status": "partial",
   "theorems": [
    "Frpc.C48_partial",
    "Frpc.C48_isolated",
    "Frpc.C48_violated"
   ],
   "note": "Complete characterisation; stream and foreign exceptions are not isolated (C48_violated)."
  },
  {
   "property": "C49",
   "status": "partial",
   "theorems": [
    "Frpc.C49_partial",
    "Frpc.C49_violated"
   ],
   "note": "False when marshalling the result fails after the head of the response was written."
  },
  {
   "property": "C50",
   "status": "proved",
   "theorems": [
    "Frpc.C50_listMethods",
    "Frpc.C50_methodHelp",
    "Frpc.C50_methodSignature"
   ],
   "note": "As long as the system methods themselves are not re-registered (hypothesis)."
  },
  {
   "property": "C51",
   "status": "proved",
   "theorems": [
    "Frpc.C51_cache",
    "Frpc.C51_exclusive",
    "Frpc.C51_fresh",
    "Frpc.C51_reuse",
    "Frpc.C51_off"
   ],
   "note": "All histories of lookups and returned proxies, any choice of multimap::find, non-decreasing clock, timeouts 1..2147483 s (beyond, timeout*1000 overflows int: undefined). The timer wheel is modelled queue by queue."
  },
  {
   "property": "C52",
   "status": "partial",
   "theorems": [
    "Frpc.C52_settings",
    "Frpc.C52_clean_partial",
    "Frpc.C52_headers_violated"
   ],
   "note": "Violated: request header fields added by one user stay in the cached proxy and are sent in the requests of the next user (C52_headers_violated). Proved: settings are those of the creator (C52_settings); no fields of others if every user deletes his (C52_clean_partial)."
  },
  {
   "property": "C53",
   "status": "partial",
   "theorems": [
    "Frpc.C53_marks",
    "Frpc.C53_marks_xml",
    "Frpc.C53_secrets_partial",
    "Frpc.C53_never_more",
    "Frpc.C53_nested_violated",
    "Frpc.C53_index_violated",
    "Frpc.C53_response_violated",
    "Frpc.C53_overflow_violated",
    "Frpc.C53_pointer_accepted",
    "Frpc.C53_pointer_ignored"
   ],
   "note": "Exact characterisation of which marks survive (binary and XML). The property holds if no secret is inside a secret and no index on the way contains a non-leading 0; it is false otherwise (outer marks and marks below indexes 10, 20, ... are lost), false for responses, and names with 20 digits make the receiver's arithmetic overflow."
  },
  {
   "property": "C54",
   "status": "proved",
   "theorems": [
    "Frpc.C54_escape",
    "Frpc.C54_escape_injective",
    "Frpc.C54_bad_escape"
   ],
   "note": "All keys."
  },
  {
   "property": "C55",
   "status": "proved",
   "theorems": [
    "Frpc.C55_hidden",
    "Frpc.C55_level",
    "Frpc.C55_length",
    "Frpc.C55_positions",
    "Frpc.C55_print_violated",
    "Frpc.C55_ref_violated",
    "Frpc.C55_text",
    "Frpc.C55_binary",
    "Frpc.C55_chunks"
   ],
   "note": "dumpFastrpcTree: noninterference for all trees, levels, limits. printValue, another function, does print secrets."
  },
  {
   "property": "C56",
   "status": "partial",
   "theorems": [
    "Frpc.C56_parse_partial",
    "Frpc.C56_getUrl_partial",
    "Frpc.C56_proxy",
    "Frpc.C56_violated"
   ],
   "note": "False as stated: a ] in the path after a plain host hides an explicit port (C56_violated). Everything else proved."
  },
  {
   "property": "C57",
   "status": "partial",
   "theorems": [
    "Frpc.C57_version_partial",
    "Frpc.C57_violated",
    "Frpc.C57_useless_violated",
    "Frpc.C57_short_violated"
   ],
   "note": "False for texts M.m: character codes are taken as numbers, and such a proxy can never call anything. True for the empty text and for two raw bytes."
  },
  {
   "property": "C58",
   "status": "partial",
   "theorems": [
    "Frpc.C58_split_partial",
    "Frpc.C58_split_all",
    "Frpc.C58_split_count",
    "Frpc.C58_split_violated"
   ],
   "note": "False for n = 1 (no caller uses it); proved for n >= 2 and unbounded."
  },
  {
   "property": "C59",
   "status": "partial",
   "theorems": [
    "Frpc.BinUnMarshaller.C59_partial_count",
    "Frpc.C59_count_partial",
    "Frpc.C59_violated"
   ],
   "note": "C59_count_partial gives every way a count is returned: at an unknown value type outside a structure, or at the end of the piece, the full claim holds; missing (and false of the code, C59_violated): at an unknown type of a structure's member the whole piece is reported although it was not parsed."
  },
  {
   "property": "C60",
   "status": "partial",
   "theorems": [
    "Frpc.C60_off",
    "Frpc.C60_accepted",
    "Frpc.C60_only",
    "Frpc.C60_illegal",
    "Frpc.C60_invalid_violated",
    "Frpc.C60_ff_violated",
    "Frpc.C60_received",
    "Frpc.C60_received_refused",
    "Frpc.C60_sent",
    "Frpc.C60_copied"
   ],
   "note": "In a UTF-8 locale (mbrtowc is specified by Utf8Mb) texts of XML characters are accepted, nothing else ever is, and texts with another character are refused with a type error. False of bytes that are not UTF-8: the result of mbrtowc is unsigned, so validation never refuses them: it runs forever or reads memory it must not (C60_invalid_violated, C60_ff_violated). Strings ending within a character are not covered by the violation (they may be refused)."
  },
  {
   "property": "C61",
   "status": "proved",
   "theorems": [
    "Frpc.C61_field_line",
    "Frpc.C61_bad_line",
    "Frpc.C61_header_block",
    "Frpc.C61_block_defined",
    "Frpc.C61_rendered"
   ],
   "note": "Field lines, continuation lines, whole header blocks under any segmentation. C61_rendered: the text operator<< writes of any header with proper fields is read back as the same header."
  },
  {
   "property": "C62",
   "status": "proved",
   "theorems": [
    "Frpc.C62_last_member_wins"
   ],
   "note": ""
  },
  {
   "property": "C63",
   "status": "proved",
   "theorems": [
    "Frpc.C63_format_fits"
   ],
   "note": ""
  },
  {
   "property": "C64",
   "status": "proved",
   "theorems": [
    "Frpc.C64_request_delivered"
   ],
   "note": "networks without errors (errors: C41_sent_prefix); plain messages below 4 GiB (see C42)"
  },
  {
   "property": "C65",
   "status": "proved",
   "theorems": [
    "Frpc.C65_response_delivered"
   ],
   "note": "networks without errors; XML and binary responses; body within the client's limit; plain messages below 4 GiB"
  },
  {
   "property": "C66",
   "status": "proved",
   "theorems": [
    "Frpc.C66_call_over_http",
    "Frpc.C66_response_over_http",
    "Frpc.C66_fault_over_http"
   ],
   "note": "binary protocol; composition of C01-C03 with C64, C65"
  },
  {
   "property": "C67",
   "status": "partial",
   "theorems": [
    "Frpc.C67_body_exact_partial",
    "Frpc.C67_smuggling_violated"
   ],
   "note": "false: body of a request refused for its content type is left on the connection and executed"
  },
  {
   "property": "C68",
   "status": "proved",
   "theorems": [
    "Frpc.C68_pipelined"
   ],
   "note": "environment that accepts every body and method"
  },
  {
   "property": "C69",
   "status": "proved",
   "theorems": [
    "Frpc.C69_serve_ends",
    "Frpc.C69_request_ends",
    "Frpc.C69_response_ends"
   ],
   "note": "the peer closes eventually; a peer that never closes is bounded only by timeouts"
  },
  {
   "property": "C70",
   "status": "partial",
   "theorems": [
    "Frpc.C70_partial",
    "Frpc.C70_violated"
   ],
   "note": "False for unmarshallable results and protocol errors."
  },
  {
   "property": "C71",
   "status": "partial",
   "theorems": [
    "Frpc.C71_call_partial",
    "Frpc.C71_garbage_partial",
    "Frpc.C71_value_partial",
    "Frpc.C71_violated",
    "Frpc.C71_unknown_version"
   ],
   "note": "False for unknown versions and requests cut short (finish is not called). The value form of processCall answers the method's value or the fault as a struct."
  },
  {
   "property": "C72",
   "status": "partial",
   "theorems": [
    "Frpc.C72_call_partial",
    "Frpc.C72_session_partial",
    "Frpc.C72_violated"
   ],
   "note": "Binary protocol, over every calm network in whatever pieces and with or without chunks: the caller gets the value or the fault of the local call, the method is run once, any number of calls in a session. Missing: results the marshaller rejects, protocol (HTTP) errors, XML/JSON. As stated it is false: C72_violated (a null result at protocol 2.0)."
  },
  {
   "property": "C73",
   "status": "proved",
   "theorems": [
    "Frpc.C73_any_request",
    "Frpc.C73_unknown_type",
    "Frpc.C73_other_method",
    "Frpc.C73_other_version",
    "Frpc.C73_bad_line",
    "Frpc.C73_refused_content",
    "Frpc.C73_head"
   ],
   "note": "Any request text with any header block; the unmarshaller is a parameter that accepts the body."
  },
  {
   "property": "C74",
   "status": "partial",
   "theorems": [
    "Frpc.C74_any_response",
    "Frpc.C74_other_status",
    "Frpc.C74_empty_reason_violated"
   ],
   "note": "Proved for responses with a reason; false for an empty reason, which RFC 7230 allows: such a response is refused."
  },
  {
   "property": "C75",
   "status": "partial",
   "theorems": [
    "Frpc.C75_target_partial",
    "Frpc.C75_proxy",
    "Frpc.C75_proxy_host_violated",
    "Frpc.C75_injection_violated",
    "Frpc.C75_space_violated"
   ],
   "note": "Proved for URLs with a port other than 0 (which the code takes for a unix socket); false through a proxy: Host is the proxy's. False too for URLs with white space in the path: nothing encodes or refuses it, so a URL can add header fields, or make the server answer 505."
  },
  {
   "property": "C76",
   "status": "partial",
   "theorems": [
    "Frpc.C76_protocol",
    "Frpc.C76_default_violated"
   ],
   "note": "Proved for ALWAYS, NEVER, ON_SUPPORT. The default mode never uses binary with a server that announces text/xml, as FastRPC's own does: C76_default_violated."
  },
  {
   "property": "C77",
   "status": "proved",
   "theorems": [
    "Frpc.C77_request",
    "Frpc.C77_once"
   ],
   "note": "Marshalled calls below 2^32 bytes."
  },
  {
   "property": "C78",
   "status": "partial",
   "theorems": [
    "Frpc.C78_own",
    "Frpc.C78_failed",
    "Frpc.C78_single",
    "Frpc.C78_reuse",
    "Frpc.C78_unsolicited_violated"
   ],
   "note": "C78_own for servers that send one response to each request and nothing else; bytes arriving between calls on a kept connection are taken for the answer (C78_unsolicited_violated)."
  },
  {
   "property": "C79",
   "status": "proved",
   "theorems": [
    "Frpc.C79_version"
   ],
   "note": "The version of responses is a parameter (Codec)."
  },
  {
   "property": "C80",
   "status": "proved",
   "theorems": [
    "Frpc.C80_packing",
    "Frpc.C80_only"
   ],
   "note": ""
  },
  {
   "property": "C81",
   "status": "partial",
   "theorems": [
    "Frpc.C81_success",
    "Frpc.C81_unwanted",
    "Frpc.C81_unwanted_root",
    "Frpc.C81_integer",
    "Frpc.C81_double",
    "Frpc.C81_dateTime",
    "Frpc.C81_unfinished",
    "Frpc.C81_builder",
    "Frpc.C81_lenient_violated",
    "Frpc.C81_stranger_violated",
    "Frpc.C81_fault_violated"
   ],
   "note": "For any parser. The full claim (every document that is no valid message is refused) is false of the code: <boolean>true</boolean> is read as false, an empty <int> as 0, a document that is no XML-RPC at all is accepted without any builder call, and asking for a fault refuses every fault."
  },
  {
   "property": "C82",
   "status": "partial",
   "theorems": [
    "Frpc.C82_transparent_partial",
    "Frpc.C82_other",
    "Frpc.C82_params_violated",
    "Frpc.C82_type_violated",
    "Frpc.C82_code_violated"
   ],
   "note": "True unless it is a multicall with a sub-call the logger cannot describe; then logging throws or reads beyond the end."
  },
  {
   "property": "C83",
   "status": "partial",
   "theorems": [
    "Frpc.C83_events_partial",
    "Frpc.C83_other",
    "Frpc.C83_lost_violated",
    "Frpc.C83_silent_violated"
   ],
   "note": "Logger function that does not throw. False for sub-calls whose result is no struct, and when logging itself throws."
  },
  {
   "property": "C84",
   "status": "proved",
   "theorems": [
    "Frpc.C84_settings",
    "Frpc.C84_wrong_type"
   ],
   "note": "All structs in memory; the protocol version is C57."
  },
  {
   "property": "C85",
   "status": "partial",
   "theorems": [
    "Frpc.C85_call_partial",
    "Frpc.C85_session_partial",
    "Frpc.C85_late_violated"
   ],
   "note": "Whole sessions, either protocol, all modes. Partial: needs a network that delivers and shows closes in time (C85_late_violated: otherwise a call fails although the server is there), values the chosen format can carry, conforming XML parsers, equal string validation on both sides, registry default-listing quirks as in C36; no SSL, no JSON/base64 answers."
  },
  {
   "property": "C86",
   "status": "partial",
   "theorems": [
    "Frpc.C86_local_partial",
    "Frpc.C86_default_partial",
    "Frpc.C86_fields_partial",
    "Frpc.C86_stamp",
    "Frpc.C86_utc_stamp_violated",
    "Frpc.C86_utc_fields_violated",
    "Frpc.C86_iso",
    "Frpc.C86_iso_refused",
    "Frpc.C86_text_roundtrip_partial",
    "Frpc.C86_summer_partial",
    "Frpc.C86_summer_violated",
    "Frpc.C86_force",
    "Frpc.C86_tm_violated"
   ],
   "note": "False as stated: UTCTime and DateTime(stamp, zone) take the local clock's fields, DateTime(text) ignores the text's zone for the unix time. Proved for LocalTime and the default constructor in zones whose summer time is one hour; instants within 2^39 s of 1970; the C library conforms to Spec/Zone."
  },
  {
   "property": "C87",
   "status": "partial",
   "theorems": [
    "Frpc.C87_without_validation_partial",
    "Frpc.C87_with_validation",
    "Frpc.C87_zones_violated",
    "Frpc.C87_same_zone_partial",
    "Frpc.C87_autumn_violated"
   ],
   "note": "False by default: validation recomputes the unix time in the receiver's zone. Proved without validation, and with it in one zone outside the hour shown twice; years 1601-2623, quarter-hour zones."
  },
  {
   "property": "C88",
   "status": "partial",
   "theorems": [
    "Frpc.C88_zone_partial",
    "Frpc.C88_sign_violated",
    "Frpc.C88_iso"
   ],
   "note": "The stored zone is positive to the west, against the documentation of getTimeZone; the ISO text is right."
  },
  {
   "property": "C89",
   "status": "partial",
   "theorems": [
    "Frpc.Js.C89_call_received_partial",
    "Frpc.Js.C89_negative_violated",
    "Frpc.Js.C89_fraction_violated",
    "Frpc.Js.C89_many_violated",
    "Frpc.Js.C89_tiny_violated",
    "Frpc.Js.C89_logarithm_violated",
    "Frpc.Js.C89_date_violated",
    "Frpc.Js.C89_version_1_violated",
    "Frpc.Js.C89_infinite_violated"
   ],
   "note": "versions 2 and 3, up to 255 arguments, sendable values; the rest is shown false"
  },
  {
   "property": "C90",
   "status": "partial",
   "theorems": [
    "Frpc.Js.C90_response_read_partial",
    "Frpc.Js.C90_fault_read",
    "Frpc.Js.C90_call_read_partial",
    "Frpc.Js.C90_subnormal_violated",
    "Frpc.Js.C90_before_1970_violated",
    "Frpc.Js.C90_version_1_violated",
    "Frpc.Js.C90_proto_violated"
   ],
   "note": "versions 2 and 3, readable values; the rest is shown false or exceeds JavaScript's numbers"
  },
  {
   "property": "C91",
   "status": "partial",
   "theorems": [
    "Frpc.Js.C91_call_echo_partial",
    "Frpc.Js.C91_negative_violated"
   ],
   "note": "sendable and readable arguments; negative integers at version 3 come back as one less"
  },
  {
   "property": "C92",
   "status": "partial",
   "theorems": [
    "Frpc.Js.C92_terminates",
    "Frpc.Js.C92_garbage_refused",
    "Frpc.Js.C92_truncated_refused_partial",
    "Frpc.Js.C92_truncated_violated"
   ],
   "note": "truncation: values that do not end with text; those that do are accepted with zeros"
  },
  {
   "property": "C93",
   "status": "partial",
   "theorems": [
    "Frpc.Python.C93_response_partial",
    "Frpc.Python.C93_call_partial",
    "Frpc.Python.C93_fault_partial",
    "Frpc.Python.C93_nothing",
    "Frpc.Python.C93_key_violated",
    "Frpc.Python.C93_unsigned_violated",
    "Frpc.Python.C93_stamp_violated"
   ],
   "note": "Binary format. False for keys with a NUL, integers 2^63..2^64-1, time stamps of -1 (negations proved); the XML format is C124."
  },
  {
   "property": "C94",
   "status": "partial",
   "theorems": [
    "Frpc.Python.C94_response_received_partial",
    "Frpc.Python.C94_call_received_partial",
    "Frpc.Python.C94_fault_received",
    "Frpc.Python.C94_response_loaded",
    "Frpc.Python.C94_call_loaded",
    "Frpc.Python.C94_fault_loaded",
    "Frpc.Python.C94_unsigned_violated",
    "Frpc.Python.C94_callable_violated"
   ],
   "note": "Both directions for versions 2 and 3. False for integers 2^63..2^64-1 and for the time stamps given to a callable (negations proved)."
  },
  {
   "property": "C95",
   "status": "partial",
   "theorems": [
    "Frpc.Python.C95_refused_partial",
    "Frpc.Python.C95_refused_response_partial",
    "Frpc.Python.C95_exceptions",
    "Frpc.Python.C95_version_violated",
    "Frpc.Python.C95_version_cut_violated",
    "Frpc.Python.C95_extra_violated",
    "Frpc.Python.C95_fault_code_violated",
    "Frpc.Python.C95_datetime_violated"
   ],
   "note": "False for versions above 3, responses of several values, wide fault codes and datetime objects (negations proved)."
  },
  {
   "property": "C96",
   "status": "partial",
   "theorems": [
    "Frpc.Python.C96_exceptions_partial",
    "Frpc.Python.C96_crash_violated",
    "Frpc.Python.C96_cut_violated"
   ],
   "note": "Exceptions characterised for all bytes; false for faults whose message is not UTF-8 and for cut messages (negations proved)."
  },
  {
   "property": "C97",
   "status": "partial",
   "theorems": [
    "Frpc.C97_conversation_partial",
    "Frpc.C97_connections_partial",
    "Frpc.C97_violated"
   ],
   "note": "The whole server. Missing: methods that throw protocol or HTTP errors; results that the marshaller rejects (C49_violated). As stated it is false: C97_violated."
  },
  {
   "property": "C98",
   "status": "partial",
   "theorems": [
    "Frpc.C98_refused",
    "Frpc.C98_body_served_violated",
    "Frpc.C98_http10_violated"
   ],
   "note": "The answer is proved; that no method runs is false for unknown content types: the unread body is served as the next requests (request smuggling); that the answer is in a form the client knows is false for HTTP/1.0 clients that accept binary answers: it is sent in chunks."
  },
  {
   "property": "C99",
   "status": "partial",
   "theorems": [
    "Frpc.C99_first_partial",
    "Frpc.C99_violated"
   ],
   "note": "Proved for one connection. False over connections: HEAD (405) leaves the pointer; the next refused request uses it."
  },
  {
   "property": "C100",
   "status": "partial",
   "theorems": [
    "Frpc.C100_ledger_partial",
    "Frpc.C100_failed",
    "Frpc.C100_interrupted_violated"
   ],
   "note": "Proved if no close is interrupted; an interrupted close is called twice (negation proved)."
  },
  {
   "property": "C101",
   "status": "partial",
   "theorems": [
    "Frpc.C101_fresh",
    "Frpc.C101_kept_partial",
    "Frpc.C101_violated"
   ],
   "note": "Fresh connections proved; after a kept connection was closed by the peer a failed reconnect leaves a descriptor that the next call returns (negation proved)."
  },
  {
   "property": "C102",
   "status": "partial",
   "theorems": [
    "Frpc.C102_client_partial",
    "Frpc.C102_violated"
   ],
   "note": "Proved for known content types; otherwise a double delete (negation proved)."
  },
  {
   "property": "C103",
   "status": "partial",
   "theorems": [
    "Frpc.C103_inet_partial",
    "Frpc.C103_unix_partial",
    "Frpc.C103_long_violated",
    "Frpc.C103_unix_proxy_violated",
    "Frpc.C103_port_violated"
   ],
   "note": "Proved for ports 1..65535 and paths up to 107 bytes; rest negated."
  },
  {
   "property": "C104",
   "status": "partial",
   "theorems": [
    "Frpc.Heap.C104_pools_partial",
    "Frpc.Heap.C104_leak_violated"
   ],
   "note": "Missing: move assignment to a pool that has values and stealing from itself leak (C104_leak_violated)."
  },
  {
   "property": "C105",
   "status": "proved",
   "theorems": [
    "Frpc.Heap.C105_untouched",
    "Frpc.Heap.C105_clone",
    "Frpc.Heap.C105_independent",
    "Frpc.Heap.C105_shared_violated"
   ],
   "note": "C105_shared_violated shows that the hypothesis (no part is touched) is needed."
  },
  {
   "property": "C106",
   "status": "proved",
   "theorems": [
    "Frpc.Heap.C106_built",
    "Frpc.Heap.C106_received"
   ],
   "note": "Any calls and any bytes for the binary unmarshaller."
  },
  {
   "property": "C107",
   "status": "proved",
   "theorems": [
    "Frpc.Heap.C107_walk",
    "Frpc.Heap.C107_endless",
    "Frpc.Heap.C107_self"
   ],
   "note": "An exact characterisation."
  },
  {
   "property": "C108",
   "status": "proved",
   "theorems": [
    "Frpc.Heap.C108_array",
    "Frpc.Heap.C108_struct",
    "Frpc.Heap.C108_struct_of"
   ],
   "note": "Given the container is not reached from the new item (C107 otherwise)."
  },
  {
   "property": "C109",
   "status": "partial",
   "theorems": [
    "Frpc.C109_accepted",
    "Frpc.C109_refused_partial",
    "Frpc.C109_same",
    "Frpc.C109_violated"
   ],
   "note": "False of unfinished texts."
  },
  {
   "property": "C110",
   "status": "partial",
   "theorems": [
    "Frpc.C110_register_partial",
    "Frpc.C110_history",
    "Frpc.C110_new",
    "Frpc.C110_default_partial",
    "Frpc.C110_violated",
    "Frpc.C110_refused",
    "Frpc.C110_head"
   ],
   "note": "False: help texts must be bytes; non-callables are undefined behaviour in registerDefault."
  },
  {
   "property": "C111",
   "status": "partial",
   "theorems": [
    "Frpc.C111_call_partial",
    "Frpc.C111_default_partial",
    "Frpc.C111_missing_partial",
    "Frpc.C111_refused_partial",
    "Frpc.C111_violated",
    "Frpc.C111_python"
   ],
   "note": "Needs an interpreter before 3.10, names in UTF-8, printable exceptions; false otherwise."
  },
  {
   "property": "C112",
   "status": "partial",
   "theorems": [
    "Frpc.C112_list_partial",
    "Frpc.C112_about_partial",
    "Frpc.C112_disabled_partial",
    "Frpc.C112_violated"
   ],
   "note": "listMethods writes over foreign memory."
  },
  {
   "property": "C113",
   "status": "partial",
   "theorems": [
    "Frpc.C113_multicall_partial",
    "Frpc.C113_violated"
   ],
   "note": "Results bare; names cut at NUL."
  },
  {
   "property": "C114",
   "status": "partial",
   "theorems": [
    "Frpc.C114_conversation_partial",
    "Frpc.C114_closed_violated",
    "Frpc.C114_blank_lines"
   ],
   "note": "Every list of well-formed requests and network schedule; partial as serve raises when the client closes a kept connection (C114_closed_violated), and forms, names with NUL and results that cannot be sent are excluded."
  },
  {
   "property": "C115",
   "status": "partial",
   "theorems": [
    "Frpc.C115_refused_partial",
    "Frpc.C115_other_method",
    "Frpc.C115_leak_violated",
    "Frpc.C115_send_violated",
    "Frpc.C115_version_violated",
    "Frpc.C115_form_violated",
    "Frpc.C115_preRead",
    "Frpc.C115_nul_violated"
   ],
   "note": "Refusals and other HTTP methods are proved; the general statement is false: header fields leak to the next client, and two kinds of clients end the process."
  },
  {
   "property": "C116",
   "status": "proved",
   "theorems": [
    "Frpc.C116_request",
    "Frpc.C116_answer",
    "Frpc.C116_status",
    "Frpc.C116_hooks",
    "Frpc.C116_version"
   ],
   "note": "Requests, answers in all three formats and error statuses, for every state the proxy can reach between calls"
  },
  {
   "property": "C117",
   "status": "partial",
   "theorems": [
    "Frpc.C117_unsendable_partial",
    "Frpc.C117_chunks_violated",
    "Frpc.C117_fields_violated",
    "Frpc.C117_version_violated",
    "Frpc.C117_server_version_violated",
    "Frpc.C117_text_violated",
    "Frpc.C117_closed"
   ],
   "note": "True for arguments that cannot be sent when at most one buffer was written; the negations give the cases where it is false of the code"
  },
  {
   "property": "C118",
   "status": "partial",
   "theorems": [
    "Frpc.C118_call_partial",
    "Frpc.C118_session_partial",
    "Frpc.C118_client",
    "Frpc.C118_dead",
    "Frpc.C118_closing",
    "Frpc.C118_violated"
   ],
   "note": "Missing: results that cannot be sent (C115), connections closed by the server without the proxy seeing it in time. As stated it is false: C118_violated. What holds over any network is C129."
  },
  {
   "property": "C119",
   "status": "partial",
   "theorems": [
    "Frpc.C119_hidden",
    "Frpc.C119_level",
    "Frpc.C119_text_partial",
    "Frpc.C119_cut_violated",
    "Frpc.C119_large_violated",
    "Frpc.C119_names_violated",
    "Frpc.C119_bytes"
   ],
   "note": "Hiding and levels are proved for all objects; the full text is proved for texts that are not cut within a character and integers of 64 bits. The negations show a cut character, a large integer and names in a list."
  },
  {
   "property": "C120",
   "status": "partial",
   "theorems": [
    "Frpc.C120_up_partial",
    "Frpc.C120_down",
    "Frpc.C120_content_violated"
   ],
   "note": "Proved for all servers whose last call was not answered in chunks, and for all that the head method may give; C115_other_method has the 405. The negation shows the content after an answer in chunks."
  },
  {
   "property": "C121",
   "status": "partial",
   "theorems": [
    "Frpc.C121_local_partial",
    "Frpc.C121_now_partial",
    "Frpc.C121_stamp",
    "Frpc.C121_utc_violated",
    "Frpc.C121_utc_now_violated",
    "Frpc.C121_text",
    "Frpc.C121_value",
    "Frpc.C121_attributes_partial",
    "Frpc.C121_refused",
    "Frpc.C121_attributes_violated",
    "Frpc.C121_large_violated",
    "Frpc.C121_order_partial",
    "Frpc.C121_order_violated",
    "Frpc.C121_total",
    "Frpc.C121_foreign"
   ],
   "note": "Proved: LocalTime and DateTime(text) as C86/C31/C32, attributes in range, comparing in one zone, total order. False of the code, negations proved: UTCTime, comparing across zones, attributes out of range, crashes on del and on huge stamps. mktime/localtime are parameters that conform to Spec/Zone."
  },
  {
   "property": "C122",
   "status": "partial",
   "theorems": [
    "Frpc.C122_made",
    "Frpc.C122_pair",
    "Frpc.C122_pair_refused",
    "Frpc.C122_compare",
    "Frpc.C122_foreign",
    "Frpc.C122_text_violated",
    "Frpc.C122_del_violated"
   ],
   "note": "Proved for every object of the model (objects of other classes say their truth themselves). False of the code: deleting the value crashes."
  },
  {
   "property": "C123",
   "status": "partial",
   "theorems": [
    "Frpc.Converters.C123_partial",
    "Frpc.Converters.C123_wide_violated"
   ],
   "note": "Proved for all nestings of the library's converters over all reachable heaps; false for wide strings (negation proved). Converters written by the user are not modelled."
  },
  {
   "property": "C124",
   "status": "partial",
   "theorems": [
    "Frpc.Python.C124_choice",
    "Frpc.Python.C124_binary_known",
    "Frpc.Python.C124_response_partial",
    "Frpc.Python.C124_call_partial",
    "Frpc.Python.C124_fault_partial",
    "Frpc.Python.C124_nothing",
    "Frpc.Python.C124_cr_violated",
    "Frpc.Python.C124_stamp_violated",
    "Frpc.Python.C124_least_violated",
    "Frpc.Python.C124_mark_violated",
    "Frpc.Python.C124_cut_violated",
    "Frpc.Python.C124_one_byte_violated",
    "Frpc.Python.C124_short",
    "Frpc.Python.C124_utf8"
   ],
   "note": "proved for objects XML can carry; false for CR, time stamps, the least integer, late version marks, cut texts; a data of one byte in C++ is read out of bounds"
  },
  {
   "property": "C125",
   "status": "proved",
   "theorems": [
    "Frpc.C125_at_most_once",
    "Frpc.C125_never_wrong",
    "Frpc.C125_session",
    "Frpc.C125_silent"
   ],
   "note": "any network, any session length; at_most_once makes no assumption about results, the other two that they can be sent (AnswerTravels)"
  },
  {
   "property": "C126",
   "status": "partial",
   "theorems": [
    "Frpc.C126_fields_partial",
    "Frpc.C126_injection_violated",
    "Frpc.C126_chunked_violated",
    "Frpc.C126_response_violated"
   ],
   "note": "Proved for well-formed fields (FieldOk); false otherwise: nothing checks line ends, and the three _violated theorems show that any call can be replaced by any other of the same packed length (no condition on lengths with chunks)."
  },
  {
   "property": "C127",
   "status": "partial",
   "theorems": [
    "Frpc.C127_reading_partial",
    "Frpc.C127_sending_partial",
    "Frpc.C127_timeout_violated"
   ],
   "note": "Proved: a wait that times out is the last one, and there are at most as many waits as bytes read (sent) and one more, so the time of reading a response or a request is at most (bytes + 1) times the timeout. The full claim is false: C127_timeout_violated. EINTR, which restarts a wait, is not modelled."
  },
  {
   "property": "C128",
   "status": "proved",
   "theorems": [
    "Frpc.C128_no_amplification",
    "Frpc.C128_at_any_time",
    "Frpc.C128_calls",
    "Frpc.C128_tight"
   ],
   "note": "For the binary decoder with any builder (calls) and the tree builder (values); the memory of representations is not modelled."
  },
  {
   "property": "C129",
   "status": "proved",
   "theorems": [
    "Frpc.C129_at_most_once",
    "Frpc.C129_never_wrong",
    "Frpc.C129_session"
   ],
   "note": "for every network; results that cannot be sent are excluded in never_wrong and session only"
  },
  {
   "property": "C130",
   "status": "proved",
   "theorems": [
    "Frpc.C130_at_most_once",
    "Frpc.C130_never_wrong",
    "Frpc.C130_session"
   ],
   "note": "Network, date-time rules of libc, user methods and the XML parser are parameters."
  },
  {
   "property": "C131",
   "status": "proved",
   "theorems": [
    "Frpc.C131_at_most_once",
    "Frpc.C131_never_wrong",
    "Frpc.C131_session"
   ],
   "note": "Network, date-time rules of libc, user functions and the XML parser are parameters."
  },
  {
   "property": "C132",
   "status": "partial",
   "theorems": [
    "Frpc.C132_alphabet_partial",
    "Frpc.C132_foreign",
    "Frpc.C132_size",
    "Frpc.C132_violated",
    "Frpc.C132_nul_violated",
    "Frpc.C132_padding_violated"
   ],
   "note": "False as stated: the decoder cannot refuse a text. Proved: texts over the alphabet are read as the data they encode, foreign characters have no meaning of their own, size bound."
  },
  {
   "property": "C133",
   "status": "partial",
   "theorems": [
    "Frpc.C133_in_partial",
    "Frpc.C133_out_partial",
    "Frpc.C133_asking",
    "Frpc.C133_name_violated",
    "Frpc.C133_text_violated",
    "Frpc.C133_stale_violated",
    "Frpc.C133_leak_violated",
    "Frpc.C133_texts"
   ],
   "note": "Proved for fields Python can show and names in canonical capitals; false for other spellings, non-UTF-8 fields, the preRead hook, and reference counts."
  },
  {
   "property": "C134",
   "status": "proved",
   "theorems": [
    "Frpc.C134_reset",
    "Frpc.C134_interrupted",
    "Frpc.C134_between_members"
   ],
   "note": "C134_between_members: inside a structure (between members) the type byte of a fault is read as the length of a name, so the interrupted message must not end there."
  },
  {
   "property": "C135",
   "status": "proved",
   "theorems": [
    "Frpc.C135_name",
    "Frpc.C135_distinct",
    "Frpc.C135_every",
    "Frpc.C135_own"
   ],
   "note": "Names are C strings without NUL; the attribute __dict__ is not a method."
  },
  {
   "property": "C136",
   "status": "partial",
   "theorems": [
    "Frpc.C136_order",
    "Frpc.C136_stops",
    "Frpc.C136_success",
    "Frpc.C136_terminal",
    "Frpc.C136_every",
    "Frpc.C136_exit",
    "Frpc.C136_exit_violated",
    "Frpc.C136_timeout_violated",
    "Frpc.C136_line"
   ],
   "note": "Proved except for two commands whose documentation is false of the code: exit RESULT and timeout MILLISECONDS (C136_exit_violated, C136_timeout_violated)."
  },
  {
   "property": "C137",
   "status": "proved",
   "theorems": [
    "Frpc.C137_host",
    "Frpc.C137_named",
    "Frpc.C137_port80",
    "Frpc.C137_args",
    "Frpc.C137_url",
    "Frpc.C137_names"
   ],
   "note": "Composed with the URL parser of C56."
  },
  {
   "property": "C138",
   "status": "partial",
   "theorems": [
    "Frpc.C138_refused_partial",
    "Frpc.C138_distinct",
    "Frpc.C138_behind",
    "Frpc.C138_violated"
   ],
   "note": "False for error numbers just behind the table (C138_violated); proved for all others."
  },
  {
   "property": "C139",
   "status": "proved",
   "theorems": [
    "Frpc.C139_elapsed",
    "Frpc.C139_back"
   ],
   "note": "All pairs of readings of the clock."
  },
  {
   "property": "C140",
   "status": "partial",
   "theorems": [
    "Frpc.C140_made",
    "Frpc.C140_members",
    "Frpc.C140_kept",
    "Frpc.C140_text",
    "Frpc.C140_response",
    "Frpc.C140_references_partial",
    "Frpc.C140_violated",
    "Frpc.C140_print_violated"
   ],
   "note": "references are balanced for one construction with the right number of arguments and any history; false for a wrong number of arguments, a second __init__; printing is undefined for a method member that is no method"
  },
  {
   "property": "C141",
   "status": "partial",
   "theorems": [
    "Frpc.C141_printed",
    "Frpc.C141_off",
    "Frpc.C141_on_partial",
    "Frpc.C141_failures",
    "Frpc.C141_again",
    "Frpc.C141_violated"
   ],
   "note": "with autocommit on all statements but the last one last; the last is lost at the end of the session (violated)"
  },
  {
   "property": "C142",
   "status": "partial",
   "theorems": [
    "Frpc.C142_up_partial",
    "Frpc.C142_down",
    "Frpc.C142_violated"
   ],
   "note": "Proved for every state of the server object, as a function of the format that the last POST has left; that the answer does not depend on other clients is false."
  },
  {
   "property": "C143",
   "status": "partial",
   "theorems": [
    "Frpc.C143_kept_partial",
    "Frpc.C143_violated"
   ],
   "note": "The bound by what was sent is proved; the bound by the limits is false."
  },
  {
   "property": "C144",
   "status": "partial",
   "theorems": [
    "Frpc.C144_refused_partial",
    "Frpc.C144_both_violated",
    "Frpc.C144_twice_violated",
    "Frpc.C144_length_violated",
    "Frpc.C144_chunk_violated"
   ],
   "note": "An unknown coding, or a length that begins with no number, is refused; ambiguous framing is accepted (negations proved)."
  },
  {
   "property": "C145",
   "status": "partial",
   "theorems": [
    "Frpc.C145_accepts",
    "Frpc.C145_options_partial",
    "Frpc.C145_ignored_violated"
   ],
   "note": "Exactly the acceptable arguments make a server, and each option sets what it names. False of callbacks under unknown names or not in a dictionary: ignored silently."
  },
  {
   "property": "C146",
   "status": "partial",
   "theorems": [
    "Frpc.C146_released_partial",
    "Frpc.C146_violated"
   ],
   "note": "False: built-in methods keep the registry alive. The exact condition under which it is freed is proved over all registration histories."
  },
  {
   "property": "C147",
   "status": "partial",
   "theorems": [
    "Frpc.C147_error_partial",
    "Frpc.C147_violated"
   ],
   "note": "Exactly one HTTP error 500 for results whose convertible part fits the buffer or that are not binary; false of longer binary results, where the error comes inside a chunked answer 200."
  },
  {
   "property": "C148",
   "status": "partial",
   "theorems": [
    "Frpc.C148_unambiguous_partial",
    "Frpc.C148_sorted_partial",
    "Frpc.C148_violated"
   ],
   "note": "Injective on results whose strings have no line ends and whose names no spaces; false otherwise (no escapes)."
  },
  {
   "property": "C149",
   "status": "proved",
   "theorems": [
    "Frpc.C149_offers",
    "Frpc.C149_known",
    "Frpc.C149_order",
    "Frpc.C149_stays"
   ],
   "note": "Complete characterisation over all histories; the names added by the import command are not modelled."
  },
  {
   "property": "C150",
   "status": "partial",
   "theorems": [
    "Frpc.C150_tornado_partial",
    "Frpc.C150_flask_partial",
    "Frpc.C150_aiohttp_partial",
    "Frpc.C150_served_partial",
    "Frpc.C150_never_violated",
    "Frpc.C150_allowed_violated",
    "Frpc.C150_silent_violated",
    "Frpc.C150_any_violated",
    "Frpc.C150_length_violated"
   ],
   "note": "Proved for every request as far as it holds; the negations are proved: aiohttp labels binary as XML, XML-only handlers answer binary, Flask refuses clients without Accept, */* and parameters are refused, Content-Length counts characters."
  },
  {
   "property": "C151",
   "status": "partial",
   "theorems": [
    "Frpc.C151_once",
    "Frpc.C151_aiohttp_partial",
    "Frpc.C151_aiohttp_unknown_partial",
    "Frpc.C151_flask_partial",
    "Frpc.C151_flask_xml_partial",
    "Frpc.C151_tornado_partial",
    "Frpc.C151_status",
    "Frpc.C151_status_message",
    "Frpc.C151_tornado_xml_partial",
    "Frpc.C151_fault_violated",
    "Frpc.C151_unknown_violated",
    "Frpc.C151_uwsgi_violated",
    "Frpc.C151_chunk_violated"
   ],
   "note": "One run at most for every request; end to end for messages that the library carries. Negations proved: faults, unknown names in Tornado, Flask outside uWSGI and chunked."
  },
  {
   "property": "C152",
   "status": "partial",
   "theorems": [
    "Frpc.C152_last",
    "Frpc.C152_lists",
    "Frpc.C152_help",
    "Frpc.C152_none_violated"
   ],
   "note": "Proved for all histories; the negation is proved of Tornado methods without documentation."
  },
  {
   "property": "C153",
   "status": "partial",
   "theorems": [
    "Frpc.C153_same_partial",
    "Frpc.C153_build_partial",
    "Frpc.C153_ends",
    "Frpc.C153_long_violated",
    "Frpc.C153_build_long_violated"
   ],
   "note": "Same output, and same effect on any builder, for all calls with C strings shorter than 4 GiB; the _violated theorems show that the full statement is false of longer ones."
  },
  {
   "property": "C154",
   "status": "proved",
   "theorems": [
    "Frpc.C154_told",
    "Frpc.C154_strange",
    "Frpc.C154_fine"
   ],
   "note": "For all trees and all marshallers."
  },
  {
   "property": "C155",
   "status": "proved",
   "theorems": [
    "Frpc.C155_found",
    "Frpc.C155_error",
    "Frpc.C155_unique",
    "Frpc.C155_secret"
   ],
   "note": "For all trees whose structs have different names (as std::map has) and all chains."
  },
  {
   "property": "C156",
   "status": "proved",
   "theorems": [
    "Frpc.C156_library",
    "Frpc.C156_own",
    "Frpc.C156_stack"
   ],
   "note": "For all trees (arrays below 2^32 items) and all marshallers; what the pointers mean is the subject of the theorems on secrets."
  }
 ]
}