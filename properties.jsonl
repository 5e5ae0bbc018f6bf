{"id": "C01", "title": "Byte cursor never over-reads, never loses bytes, and failed reads leave it untouched", "statement": "For every SliceReader over every buffer and every read/peek/take operation: on success the bytes returned are exactly the next bytes of the unread input and the new unread input is what follows them, offset() grows by exactly the number of bytes removed; on failure the cursor is unchanged and the error carries the current offset, the number of bytes needed and the number available; peeks never move the cursor; a sub-reader from take_slice reports absolute offsets of the original buffer. Hence after any sequence of operations, offset()+remaining() of the top-level reader is constant and the unread bytes are a suffix of the original buffer.", "quantifier": "all buffers, all starting offsets, all operations with all lengths (including attacker-controlled lengths larger than the buffer), all finite sequences of operations", "why_tests_cant": "Tests exercise a handful of buffers and single operations; the claim ranges over all lengths and all interleavings of operations.", "anchors": ["crates/parse-utils/src/reader.rs: SliceReader::{read_u8,read_array,read_bytes,take_slice,peek_u8,peek_array,read_padded}", "crates/parse-utils/src/error.rs: ParseError"]}
{"id": "C02", "title": "Reduced-size integer reads equal the mathematical value of the bytes", "statement": "read_unsigned32_be(len)/read_unsigned64_be(len) return exactly the base-256 big-endian value of the next len bytes for len up to 4/8, read_signed32_be/read_signed64_be return their two's-complement value with the sign taken from the top bit of the first octet read, a larger len is rejected without consuming anything, and a length of zero yields 0 and consumes nothing.", "quantifier": "all buffers, all len, both widths, signed and unsigned", "why_tests_cant": "256^8 byte strings and every length; tests sample a few.", "anchors": ["crates/parse-utils/src/reader.rs: read_unsigned32_be, read_unsigned64_be, read_signed32_be, read_signed64_be"]}
{"id": "C03", "title": "IP prefix decoding reads ceil(len/8) octets and accepts exactly the legal prefix lengths", "statement": "Decoding an IPv4 (IPv6) prefix succeeds iff the length octet is at most 32 (128) and ceil(len/8) octets follow; the resulting address is these octets zero-filled on the right; exactly 1+ceil(len/8) octets are consumed; an illegal length is reported with the offset of the length octet; and writing a prefix and decoding it returns the same network: a prefix without host bits comes back unchanged, any other with its host bits cleared.", "quantifier": "all prefix lengths 0..255, all addresses, all following bytes", "why_tests_cant": "Needs every (length, address) pair; 2^128 addresses.", "anchors": ["crates/parse-utils/src/common.rs: Ipv4Net::parse, Ipv6Net::parse", "crates/bgp-pkt/src/wire/serializer/nlri.rs"]}
{"id": "C04", "title": "Tagged IP address round-trip and size accounting", "statement": "Writing an IP address with its length tag and decoding it yields the same address; decoding accepts exactly tags 4 and 16; and the advertised len() of the writer equals the number of bytes it writes.", "quantifier": "all IPv4 and IPv6 addresses, all byte inputs", "why_tests_cant": "Input space is 2^128; tests cover two addresses.", "anchors": ["crates/parse-utils/src/common.rs: IpAddr::parse", "crates/bgp-pkt/src/wire/serializer/mod.rs: impl WritablePdu<IpAddrWritingError> for IpAddr"]}
{"id": "C05", "title": "BGP message framing: a decoded message accounts for every byte of its frame", "statement": "BgpMessage decoding succeeds only if the 16-octet marker is all ones, the length field is between 19 and the bytes available (and at most 4096 for OPEN and KEEPALIVE), the type is known, and the body parser consumed exactly length-19 octets; on success exactly `length` octets are consumed, never touching bytes after the frame.", "quantifier": "all byte strings, all parsing contexts", "why_tests_cant": "Adversarial byte strings of any length; tests use recorded packets.", "anchors": ["crates/bgp-pkt/src/wire/deserializer/mod.rs: BgpMessage::parse, parse_bgp_message_length_and_type"]}
{"id": "C06", "title": "BGP message round-trip", "statement": "Encoding an OPEN, KEEPALIVE, NOTIFICATION, ROUTE-REFRESH or UPDATE message that fits the wire limits and decoding it under the same negotiated context yields the same message and consumes exactly the bytes written.", "quantifier": "all messages built from the modelled fields within the wire limits; all trailing bytes", "why_tests_cant": "Infinite message space (lists of capabilities, routes and attributes of any length).", "anchors": ["crates/bgp-pkt/src/wire/serializer/mod.rs", "crates/bgp-pkt/src/wire/deserializer/mod.rs", "crates/bgp-pkt/src/lib.rs: BgpMessage"]}
{"id": "C07", "title": "BGP writer length accounting", "statement": "For every BGP message the value returned by len() equals the number of bytes written, and the 16-bit length field in the header equals that number; a message that does not fit its length field is refused with an error rather than emitted with a wrong length.", "quantifier": "all messages of any size, including those larger than 4096 and 65535 octets", "why_tests_cant": "Overflow happens only for sizes no unit test constructs; truncation is silent.", "anchors": ["crates/bgp-pkt/src/wire/serializer/mod.rs: BgpMessage::{len,write}", "crates/bgp-pkt/src/wire/serializer/update.rs", "crates/bgp-pkt/src/wire/serializer/open.rs"]}
{"id": "C08", "title": "BGP stream decoding is independent of how TCP chunks the bytes", "statement": "Feeding a byte stream to the BGP codec in any sequence of chunks, calling decode until it asks for more, produces the same sequence of messages and errors, and leaves the same unread bytes, as feeding it all at once.", "quantifier": "all byte streams, all ways to split them into chunks", "why_tests_cant": "Exponentially many chunkings of unboundedly long streams.", "anchors": ["crates/bgp-pkt/src/codec.rs: BgpCodec::decode"]}
{"id": "C09", "title": "BGP codec makes progress on every malformed frame", "statement": "Whenever BgpCodec::decode returns an error it has removed at least one byte from the buffer, so a caller looping over decode terminates on any finite input; when it returns None the buffer is unchanged and a complete frame is not yet present.", "quantifier": "all buffer contents, all codec states", "why_tests_cant": "Requires every header value, including lengths smaller than the header.", "anchors": ["crates/bgp-pkt/src/codec.rs: BgpCodec::decode"]}
{"id": "C10", "title": "4-octet AS numbers are used exactly when both sides advertised them", "statement": "Along any sequence of encode and decode calls on a BgpCodec, an AS_PATH in a decoded UPDATE is interpreted with 4-octet AS numbers iff the last OPEN encoded and the last OPEN decoded both carried the four-octet-AS capability (with the constructor's default standing in before any OPEN was exchanged).", "quantifier": "all interleavings of encoded and decoded messages", "why_tests_cant": "History property over unbounded message sequences.", "anchors": ["crates/bgp-pkt/src/codec.rs: BgpCodec::{new,decode,encode}", "crates/bgp-pkt/src/wire/deserializer/mod.rs: BgpParsingContext"]}
{"id": "C11", "title": "Recoverable parsing errors are reported with the message they belong to", "statement": "The set of ignored parsing errors returned with a decoded BGP message contains exactly the errors found in that message: none from earlier messages.", "quantifier": "all sequences of frames, well-formed or malformed, fed to one codec", "why_tests_cant": "Cross-message state: needs histories where one message fails between two others.", "anchors": ["crates/bgp-pkt/src/codec.rs: BgpCodec::decode", "crates/bgp-pkt/src/wire/deserializer/mod.rs: BgpParsingContext::reset_parsing_errors"]}
{"id": "C12", "title": "OPEN acceptance", "statement": "An OPEN message is accepted only with version 4, a hold time of 0 or at least 3 seconds and a BGP identifier that is a unicast address (not broadcast, multicast or unspecified), and each rejection carries the offending value at its offset; conversely every well-formed OPEN meeting these conditions is accepted.", "quantifier": "all OPEN bodies", "why_tests_cant": "2^80 fixed-field combinations times arbitrary parameters.", "anchors": ["crates/bgp-pkt/src/wire/deserializer/open.rs: BgpOpenMessage::parse"]}
{"id": "C13", "title": "Capability round-trip", "statement": "Every BGP capability value that fits its wire format is decoded from its encoding to the same value, consuming exactly the bytes written, and the length octet on the wire equals the number of value octets.", "quantifier": "all capability values, all trailing bytes", "why_tests_cant": "Unbounded lists inside capabilities, all code points.", "anchors": ["crates/bgp-pkt/src/wire/serializer/capabilities.rs", "crates/bgp-pkt/src/wire/deserializer/capabilities.rs"]}
{"id": "C14", "title": "Lenient capability parsing never aborts the OPEN and terminates", "statement": "With strict capability checking off, decoding the capabilities parameter of an OPEN terminates on every byte string without error, keeps every capability it could decode in order, and records one ignored error for each failure; with strict checking on, the first malformed capability makes the OPEN fail.", "quantifier": "all parameter bodies", "why_tests_cant": "Recovery depends on where each failing sub-parser stopped; unboundedly many failure positions.", "anchors": ["crates/bgp-pkt/src/wire/deserializer/open.rs: parse_capability_param", "crates/bgp-pkt/src/wire/deserializer/capabilities.rs"]}
{"id": "C15", "title": "Decoding failures map to the NOTIFICATION code of the failing layer", "statement": "Every BGP decoding error converts to a NOTIFICATION whose error code names the layer that failed (1 header, 2 OPEN, 3 UPDATE, 7 ROUTE-REFRESH) with the RFC 4271 subcode for the specific fault and, where RFC 4271 requires it, the offending data.", "quantifier": "all decoding errors that can be produced by any byte string", "why_tests_cant": "Error values nest several layers; the composition decode-then-convert ranges over all inputs.", "anchors": ["crates/bgp-pkt/src/wire/deserializer/mod.rs: From<BgpMessageParsingError> for BgpNotificationMessage", "crates/bgp-pkt/src/wire/deserializer/open.rs: From<BgpOpenMessageParsingError> for OpenMessageError"]}
{"id": "C16", "title": "UDP-notif packet round-trip", "statement": "A UDP-notif packet within the wire limits (media type below 16, segment number below 2^15, header at most 255, total at most 65535 octets) decodes from its encoding to the same packet, for any order in which its options are emitted; len() equals the bytes written and both length fields are exact; packets beyond the header or message limit are refused.", "quantifier": "all packets, all option orders", "why_tests_cant": "Option maps and payloads are unbounded; option order is a hash-map accident.", "anchors": ["crates/udp-notif-pkt/src/wire/serialize.rs", "crates/udp-notif-pkt/src/wire/deserialize.rs"]}
{"id": "C17", "title": "UDP-notif reassembly is independent of arrival order and interleaving", "statement": "If the segments 0..n of a message (last one flagged) arrive in any order, interleaved with segments of other messages, with duplicates, the codec delivers exactly one packet for it, at the moment the last missing segment arrives, whose payload is the concatenation of segment payloads in segment order.", "quantifier": "all segment counts, all payloads, all permutations and interleavings with other (publisher, message) keys", "why_tests_cant": "n! orders times interleavings.", "anchors": ["crates/udp-notif-pkt/src/codec.rs: ReassemblyBuffer, UdpPacketCodec::try_reassemble_segments"]}
{"id": "C18", "title": "UDP-notif decoder never panics on any datagram history", "statement": "For any sequence of datagrams from one source, each handed to the decoder in its own buffer, decoding returns a packet, nothing, or an error, and never aborts the process.", "quantifier": "all finite sequences of datagrams of any content and length", "why_tests_cant": "The state carried between datagrams makes the crash depend on a pair of datagrams; a per-packet fuzz test does not see it.", "anchors": ["crates/udp-notif-pkt/src/codec.rs: UdpPacketCodec::check_len, decode", "crates/udp-notif-service/src/actor.rs: decode_pkt", "crates/udp-notif-pkt/src/wire/deserialize.rs: from_bytes"]}
{"id": "C19", "title": "Reassembled UDP-notif packets keep the options of their segments", "statement": "A reassembled packet carries every non-segmentation option carried by any of its segments, including the first.", "quantifier": "all segmented messages with options", "why_tests_cant": "Depends on which segment carries the option and the arrival order.", "anchors": ["crates/udp-notif-pkt/src/codec.rs: ReassemblyBuffer::reassemble"]}
{"id": "C20", "title": "Window aggregation accounts for every item exactly once", "statement": "After any sequence of items is consumed to the end, every input item is either reported late once or was pushed into exactly one emitted window aggregate; nothing is duplicated or lost.", "quantifier": "all item sequences, timestamps, keys, window durations and lateness values", "why_tests_cant": "Unbounded histories and out-of-order timestamps.", "anchors": ["crates/analytics/src/aggregation.rs: TimeSeriesAggregator / WindowAggregator::{process_item,flush}"]}
{"id": "C21", "title": "An emitted window is never emitted again", "statement": "For each key a window start is emitted at most once (final flush included), and the emitted window holds every accepted item of its key and window: after it is emitted, no later accepted item can fall in it.", "quantifier": "all item sequences, positive window durations, all lateness values", "why_tests_cant": "Needs an invariant over unbounded histories relating watermark and open windows.", "anchors": ["crates/analytics/src/aggregation.rs: process_item"]}
{"id": "C22", "title": "Late classification", "statement": "An item is reported late iff its timestamp is older than the greatest timestamp seen for its key minus the allowed lateness; one key never influences another.", "quantifier": "all item sequences", "why_tests_cant": "Depends on the running maximum over the whole history.", "anchors": ["crates/analytics/src/aggregation.rs: process_item"]}
{"id": "C23", "title": "An emitted window contains the timestamps of its items", "statement": "Every item aggregated in an emitted window [start, end) has start <= timestamp < end, and windows of a key do not overlap.", "quantifier": "all item sequences and all window durations", "why_tests_cant": "Configuration-dependent: default-duration tests cannot see it.", "anchors": ["crates/analytics/src/aggregation.rs: window_start computation"]}
{"id": "C24", "title": "Flow codec progress and resynchronisation", "statement": "Whenever the flow codec returns an error it has removed at least one byte from the buffer; an IPFIX decode failure never removes bytes beyond the failed message's own length; when it returns None the buffer is unchanged.", "quantifier": "all buffer contents", "why_tests_cant": "All header values.", "anchors": ["crates/flow-pkt/src/codec.rs: FlowInfoCodec::decode"]}
{"id": "C25", "title": "Data records are decoded with the most recent template for their set id", "statement": "Along any sequence of IPFIX or NetFlow v9 messages from one exporter, a data set is decoded with the last template received for its id (including one earlier in the same message), and a data set whose id has never been defined is an error that changes no template.", "quantifier": "all message histories", "why_tests_cant": "History property across messages.", "anchors": ["crates/flow-pkt/src/wire/deserializer/ipfix.rs", "crates/flow-pkt/src/wire/deserializer/netflow.rs"]}
{"id": "C26", "title": "Set framing: a set consumes exactly its declared length", "statement": "Decoding an IPFIX or NetFlow v9 set consumes exactly the length in its header on success, regardless of padding, and never reads beyond it.", "quantifier": "all byte strings and template maps", "why_tests_cant": "Adversarial inputs with templates of any shape, including zero-length ones.", "anchors": ["crates/flow-pkt/src/wire/deserializer/ipfix.rs: Set::parse", "crates/flow-pkt/src/wire/deserializer/netflow.rs: Set::parse"]}
{"id": "C27", "title": "Template record round-trip", "statement": "IPFIX template and options-template records decode from their encoding to the same field specifiers, including enterprise-specific ones, and register the same template for later data sets.", "quantifier": "all templates with any number of fields", "why_tests_cant": "Unbounded field lists.", "anchors": ["crates/flow-pkt/src/wire/serializer/ipfix.rs", "crates/flow-pkt/src/wire/deserializer/ipfix.rs"]}
{"id": "C28", "title": "Flow decoding terminates on every input", "statement": "Decoding a flow packet terminates for every byte string and every set of previously learnt templates, including templates whose records have zero length.", "quantifier": "all byte strings and template maps reachable by decoding", "why_tests_cant": "Non-termination only shows with specially crafted templates.", "anchors": ["crates/flow-pkt/src/wire/deserializer/ipfix.rs", "crates/flow-pkt/src/wire/deserializer/netflow.rs"]}
{"id": "C29", "title": "BMP codec progress and exact framing", "statement": "BmpCodec::decode returns None only while the common header or declared length is not yet buffered and then leaves the buffer unchanged; a returned message consumed exactly its declared length; every error consumed at least one byte, a body error exactly the declared length, so later messages still decode.", "quantifier": "all buffer contents and codec states", "why_tests_cant": "All header values and stream positions.", "anchors": ["crates/bmp-pkt/src/codec.rs: BmpCodec::decode"]}
{"id": "C30", "title": "BMP stream decoding is independent of chunking", "statement": "Feeding a BMP byte stream in any chunking yields the same sequence of messages and errors.", "quantifier": "all byte streams, all chunkings", "why_tests_cant": "Exponentially many chunkings.", "anchors": ["crates/bmp-pkt/src/codec.rs: BmpCodec::decode"]}
{"id": "C31", "title": "ADD-PATH for a monitored peer is on exactly when negotiated in that direction", "statement": "After a Peer Up for a peer, route-monitoring NLRI of that peer for an address family is decoded with path identifiers iff the sender side of that direction advertised send and the receiver side advertised receive (adj-rib-out: local sends, remote receives; otherwise remote sends, local receives).", "quantifier": "all pairs of OPEN messages with any capabilities", "why_tests_cant": "Product of both sides' capability lists and directions.", "anchors": ["crates/bmp-pkt/src/codec.rs: BmpParsingContext::update"]}
{"id": "C32", "title": "BMP peers do not influence each other; peer down forgets", "statement": "A Peer Up or Peer Down for one peer never changes how another peer's routes are decoded, after a Peer Down nothing negotiated by that session is remembered, and a Termination forgets all peers.", "quantifier": "all message histories over all peers", "why_tests_cant": "Cross-peer interference needs histories with several peers sharing identifiers.", "anchors": ["crates/bmp-pkt/src/codec.rs: BmpParsingContext::update"]}
{"id": "C33", "title": "Session state is coherent with the transport connection", "statement": "In every reachable state of a BGP peer, the reported FSM state is OpenSent/OpenConfirm/Established only if a main connection exists and that connection is in the same state.", "quantifier": "all sequences of administrative commands, network events, timer expiries and incoming connections", "why_tests_cant": "Reachability over unbounded event sequences.", "anchors": ["crates/bgp-speaker/src/peer.rs", "crates/bgp-speaker/src/connection.rs"]}
{"id": "C34", "title": "Established requires a completed handshake", "statement": "A connection reaches Established only after, on that same connection, an OPEN was sent and an acceptable OPEN from the configured AS was received, in either order, then a KEEPALIVE was sent and after that a KEEPALIVE received; an UPDATE is delivered to the user only in Established.", "quantifier": "all event sequences", "why_tests_cant": "Trace property over unbounded histories.", "anchors": ["crates/bgp-speaker/src/connection.rs: handle_event", "crates/bgp-speaker/src/peer.rs: handle_connection_event"]}
{"id": "C35", "title": "Hold timer follows the negotiated hold time", "statement": "After OPEN exchange, the hold timer runs with the minimum of the configured and received hold times, is not running when that is zero, and is restarted by every KEEPALIVE or UPDATE received.", "quantifier": "all configurations, received hold times and event sequences", "why_tests_cant": "Timing behaviour over long sessions.", "anchors": ["crates/bgp-speaker/src/connection.rs: set_negotiated_timers, handle_open_sent_event, handle_established_event"]}
{"id": "C36", "title": "Valid UPDATE messages do not tear down the session", "statement": "An UPDATE with reachable IPv4 routes carrying ORIGIN, AS_PATH and NEXT_HOP in any order, or one that only withdraws routes, is delivered to the user and keeps the session up.", "quantifier": "all UPDATE messages, all orders of path attributes", "why_tests_cant": "Attribute order permutations; tests use one order.", "anchors": ["crates/bgp-speaker/src/connection.rs: handle_update_message"]}
{"id": "C37", "title": "Malformed UPDATE treatment is the strongest one required", "statement": "The treatment reported for an UPDATE is the most severe of the treatments required by RFC 7606 for its individual errors, independent of the order of the errors, and Normal iff no error requires more.", "quantifier": "all multisets and orders of parsing errors", "why_tests_cant": "All combinations and permutations.", "anchors": ["crates/bgp-speaker/src/connection.rs: update_treatment", "crates/bgp-speaker/src/events.rs: UpdateTreatment::cmp"]}
{"id": "C38", "title": "Administrative commands take effect in the order they are issued", "statement": "If several administrative commands are queued before the peer runs, their net effect is that of executing them in issue order; in particular start followed by stop leaves the peer down.", "quantifier": "all command sequences", "why_tests_cant": "Scheduling dependent.", "anchors": ["crates/bgp-speaker/src/peer.rs: add_admin_event, run"]}
{"id": "C39", "title": "Collision resolution keeps the same connection on both ends", "statement": "When two speakers with distinct identifiers end up with two connections between them, both ends keep the same one and close the other.", "quantifier": "all identifier pairs and all assignments of main/tracked roles", "why_tests_cant": "Distributed agreement across two peers.", "anchors": ["crates/bgp-speaker/src/peer.rs: check_connection_collision, handle_connect_event"]}
{"id": "C40", "title": "A started peer keeps trying to connect", "statement": "A peer that was started in active mode and whose TCP connection attempt fails attempts to connect again without further administrative action.", "quantifier": "all event sequences with failing connection attempts", "why_tests_cant": "Liveness over unbounded time.", "anchors": ["crates/bgp-speaker/src/peer.rs: handle_active_connection, connect, run"]}
{"id": "C41", "title": "Reducing flow fields combines every value once, in any order", "statement": "Reducing the values of any number of flows with add, min, max or bit-or yields at every position the combination of exactly the values the flows have at that position, independent of the order of the flows; an operation that a field type does not support is an error.", "quantifier": "all sequences of flows, all lengths of value lists", "why_tests_cant": "Needs all permutations and lengths.", "anchors": ["crates/analytics/src/flow.rs: reduce_num, reduce_boolmap, reduce_misc, aggr_add, aggr_min, aggr_max, aggr_bitor"]}
{"id": "C42", "title": "NLRI round trip", "statement": "Every prefix or route that can be carried in a BGP UPDATE (IPv4/IPv6 unicast and multicast, labeled unicast, MPLS-VPN, EVPN, route-target membership), with or without an ADD-PATH identifier, is read back unchanged from the octets written for it when the receiver was told the same ADD-PATH and label-count options, whatever octets follow, and the reported length is the number of octets written.", "quantifier": "all address families listed, all prefixes, label stacks up to the negotiated count, route distinguishers, path identifiers, and all following octets", "why_tests_cant": "The space of prefix length, label depth, route distinguisher and path id combinations is unbounded in practice; unit tests fix one of each.", "anchors": ["crates/bgp-pkt/src/wire/deserializer/nlri/nlri.rs", "crates/bgp-pkt/src/wire/serializer/nlri/nlri.rs", "crates/bgp-pkt/src/nlri/nlri.rs"]}
{"id": "C43", "title": "NLRI parsing never panics", "statement": "Parsing NLRI out of arbitrary octets, with any ADD-PATH setting and any negotiated label count, returns a value or an error; it never panics or loops.", "quantifier": "all octet sequences, all negotiated label counts 1..255", "why_tests_cant": "A crafted UPDATE chosen by the peer reaches this code; tests cannot enumerate octet sequences.", "anchors": ["crates/bgp-pkt/src/wire/deserializer/nlri/nlri.rs"]}
{"id": "C44", "title": "Transitivity of extended communities", "statement": "For every extended community value, the transitivity reported by the API is the transitivity bit of the type octet that is sent for it.", "quantifier": "all IPv4 and IPv6 extended communities of every class", "why_tests_cant": "There is one implementation per class, several with open-ended contents, and no test looks at them.", "anchors": ["crates/bgp-pkt/src/community.rs", "crates/bgp-pkt/src/wire/serializer/community.rs"]}
{"id": "C45", "title": "Community round trip", "statement": "Every extended, IPv6 extended and large community is read back unchanged from the octets written for it, using exactly 8, 20 and 12 octets, and reading communities from arbitrary octets never panics.", "quantifier": "all community values whose generic codes are not owned by a dedicated variant; all octet sequences", "why_tests_cant": "Values and following octets are unbounded; tests use a handful of constants.", "anchors": ["crates/bgp-pkt/src/wire/deserializer/community.rs", "crates/bgp-pkt/src/wire/serializer/community.rs"]}
{"id": "C46", "title": "BGP-LS NLRI survive a write/read round trip and malformed ones never crash the reader", "statement": "Writing a BGP-LS or BGP-LS VPN NLRI (node, link, IPv4 or IPv6 prefix, with or without a path identifier) whose fields fit the wire format yields exactly len() octets which decode to an equal value whatever follows, and decoding arbitrary octets returns a value or an error, never a panic or an endless loop. A decoded NLRI always carries an assigned protocol identifier and NLRI type.", "quantifier": "all NLRI values that fit the format, all descriptor lists, all following octets, all buffers and starting offsets", "why_tests_cant": "The TLVs nest three deep with independent length fields; tests cover a handful of captured messages.", "anchors": ["crates/bgp-pkt/src/wire/deserializer/nlri/bgp_ls.rs", "crates/bgp-pkt/src/wire/serializer/nlri/bgp_ls.rs"]}
{"id": "C47", "title": "BGP-LS attribute TLVs survive a write/read round trip and malformed ones never crash the reader", "statement": "Writing a BGP-LS attribute yields exactly len() octets which decode to an equal list of TLVs whatever follows, for every TLV kind; decoding arbitrary octets returns a value or an error, never a panic or an endless loop.", "quantifier": "all TLV kinds and values that fit a 16-bit length, all lists of TLVs, all following octets, all input buffers", "why_tests_cant": "Thirty TLV kinds with hand-written length and write functions that have to agree; tests exercise only some kinds and few values.", "anchors": ["crates/bgp-pkt/src/wire/deserializer/path_attribute/bgp_ls.rs", "crates/bgp-pkt/src/wire/serializer/path_attribute/bgp_ls.rs"]}
{"id": "C48", "title": "The BGP Prefix-SID attribute survives a write/read round trip and malformed ones never crash the reader", "statement": "Writing a Prefix-SID attribute (label index, originator SRGB, SRv6 L2/L3 services with sub- and sub-sub-TLVs, unassigned TLVs) yields exactly len() octets which decode to an equal value whatever follows; decoding arbitrary octets returns a value or an error, never a panic or an endless loop.", "quantifier": "all attribute values whose nested lengths fit the format, all following octets, all input buffers", "why_tests_cant": "Lengths at three nesting levels have to be consistent for lists of any size.", "anchors": ["crates/bgp-pkt/src/wire/deserializer/path_attribute/bgp_sid.rs", "crates/bgp-pkt/src/wire/serializer/path_attribute/bgp_sid.rs"]}
{"id": "C49", "title": "Every path attribute survives a write/read round trip", "statement": "Writing a path attribute that the API accepts yields exactly len() octets, and decoding these under the same negotiated options, whatever follows, returns an equal attribute and leaves what follows.", "quantifier": "all attribute types including multiprotocol reachability for every address family, all values, all flag combinations the constructor accepts, all negotiated options, all following octets", "why_tests_cant": "Twenty attribute types times twelve address families, with lengths computed separately from the octets written and two length formats.", "anchors": ["crates/bgp-pkt/src/wire/deserializer/path_attribute/path_attribute.rs", "crates/bgp-pkt/src/wire/serializer/path_attribute/path_attribute.rs"]}
{"id": "C50", "title": "No path attribute crashes the decoder", "statement": "Decoding arbitrary octets as a path attribute, under any negotiated options, returns an attribute or an error, never a panic or an endless loop, and every decoded attribute consumes at least three octets.", "quantifier": "all buffers, all positions in a buffer, all negotiated options", "why_tests_cant": "Offsets and lengths are subtracted and multiplied in fixed-width integers; only particular combinations of negotiated options and octets overflow.", "anchors": ["crates/bgp-pkt/src/wire/deserializer/path_attribute/path_attribute.rs"]}
{"id": "C51", "title": "A decoded path attribute consumes exactly what its length field announces", "statement": "When an attribute is decoded, its flags are the four high bits of the first octet, its type code is the second octet, the length is one octet, or two with the extended-length flag, and exactly as many octets as that length announces are consumed, so that the next attribute is read from the right place.", "quantifier": "all buffers, all negotiated options, all attribute types", "why_tests_cant": "Fixed-size attributes read from the enclosing buffer, lists read from a slice; one mismatch desynchronises every later attribute.", "anchors": ["crates/bgp-pkt/src/wire/deserializer/path_attribute/path_attribute.rs"]}
{"id": "C52", "title": "Attributes are only accepted with the flags of their category", "statement": "A decoded attribute of a type the library knows has the Optional and Transitive flags its category prescribes, and the Partial flag cleared unless it is optional transitive (RFC 4271 section 4.3); anything else is an error.", "quantifier": "all buffers, all negotiated options, all flag octets", "why_tests_cant": "Sixteen flag combinations for each of twenty types, enforced by per-type constants.", "anchors": ["crates/bgp-pkt/src/path_attribute/path_attribute.rs", "crates/bgp-pkt/src/wire/deserializer/path_attribute/path_attribute.rs"]}
{"id": "C53", "title": "AS numbers are decoded with the negotiated width and AS path segments are never empty", "statement": "AS_PATH and AGGREGATOR are decoded with four-octet AS numbers iff these were negotiated, AS4_PATH always with four octets, and every decoded segment holds between 1 and 255 AS numbers.", "quantifier": "all buffers, both AS number widths", "why_tests_cant": "A width mix-up decodes silently to plausible values; emptiness depends on nested counts.", "anchors": ["crates/bgp-pkt/src/wire/deserializer/path_attribute/path_attribute.rs"]}
{"id": "C54", "title": "No BGP message crashes the decoder", "statement": "Decoding arbitrary octets as a BGP message, under any negotiated options and any error policy, returns a message or an error, never a panic or an endless loop.", "quantifier": "all buffers, all negotiated options, strict and lenient error policies", "why_tests_cant": "Nested lengths at five levels; only particular combinations of options and octets overflow.", "anchors": ["crates/bgp-pkt/src/wire/deserializer/mod.rs", "crates/bgp-pkt/src/wire/deserializer/open.rs", "crates/bgp-pkt/src/wire/deserializer/update.rs"]}
{"id": "C55", "title": "A malformed capability costs only itself", "statement": "When capability errors are tolerated, an OPEN with one malformed capability still yields every other capability that decodes on its own, in order.", "quantifier": "all OPEN bodies, all positions of the malformed capability", "why_tests_cant": "The decoder must find the end of a capability whose contents it could not decode; every error path leaves the cursor somewhere else.", "anchors": ["crates/bgp-pkt/src/wire/deserializer/open.rs: parse_capability_param"]}
{"id": "C56", "title": "A malformed path attribute costs only itself", "statement": "When malformed path attributes are tolerated, an UPDATE with a malformed attribute still yields every other attribute that decodes on its own, in order, with one recorded error for each malformed one.", "quantifier": "all attribute lists, all kinds and positions of malformed attributes", "why_tests_cant": "Recovery skips by kind of error; whether the cursor is at the start, in the middle or at the end of the attribute differs between error paths.", "anchors": ["crates/bgp-pkt/src/wire/deserializer/update.rs: handle_path_error"]}
{"id": "C57", "title": "A stopped peer is down", "statement": "After a stop command a peer is in Idle, has no connection, does not connect or retry, and its neighbour was sent a Cease NOTIFICATION; nothing received afterwards is reported.", "quantifier": "all executions before and after the stop command", "why_tests_cant": "The stop command competes with pending writes and timers.", "anchors": ["crates/bgp-speaker/src/peer.rs: run, shutdown"]}
{"id": "C58", "title": "Nothing a neighbour does ends the task of a peer", "statement": "Whatever messages, connections and disconnections its neighbour produces, the task of a peer keeps running and goes on to serve its user.", "quantifier": "all behaviours of the neighbour, all outcomes of writes", "why_tests_cant": "Needs every combination of states of two connections and failing writes.", "anchors": ["crates/bgp-speaker/src/peer.rs: run, handle_connection_event", "crates/bgp-speaker/src/peer_controller.rs"]}
{"id": "C59", "title": "Every UPDATE received in Established is reported", "statement": "An UPDATE received on the session in Established is reported to the user, as an UPDATE or as an error found in it, exactly once.", "quantifier": "all executions in which the session is Established", "why_tests_cant": "A message can get lost between polling a connection and a decision about another one.", "anchors": ["crates/bgp-speaker/src/peer.rs: next_connection_event, check_connection_collision"]}
{"id": "C60", "title": "A resolved collision leaves a working session", "statement": "When the peer reports that it resolved a connection collision, one connection is left, the state of the peer is that of the connection, and the handshake on it can be completed.", "quantifier": "all executions with two connections", "why_tests_cant": "Depends on which message arrives on which connection at the moment the collision is found.", "anchors": ["crates/bgp-speaker/src/peer.rs: check_connection_collision, handle_connect_event"]}
{"id": "C61", "title": "The OPEN carries what is configured", "statement": "Every OPEN sent carries the configured identifier, hold time and AS number (AS_TRANS and the four-octet AS capability for large numbers) and every configured capability; other capabilities come from the neighbour's OPEN and are not rejected ones; no capability is repeated.", "quantifier": "all configurations, all capabilities received, all executions", "why_tests_cant": "The capabilities sent depend on what was received before on other connections.", "anchors": ["crates/bgp-speaker/src/peer.rs: open_message, pre_handle_connection_event_hook"]}
{"id": "C62", "title": "A malformed message is answered with its NOTIFICATION", "statement": "A message with a malformed header or a malformed body is answered with the NOTIFICATION for that error before the connection is closed, in every state after the OPEN was sent.", "quantifier": "all decoder errors, all states of a connection", "why_tests_cant": "Error paths differ by state; a neighbour that sees no NOTIFICATION cannot tell why the session ended.", "anchors": ["crates/bgp-speaker/src/connection.rs: handle_open_sent_event, handle_open_confirm_event, handle_established_event"]}
{"id": "C63", "title": "Expiry of the hold timer ends the session with a NOTIFICATION", "statement": "When the hold timer expires in OpenSent, OpenConfirm or Established, the NOTIFICATION Hold Timer Expired is sent and the connection is given up.", "quantifier": "all connections, all times", "why_tests_cant": "Timers of minutes.", "anchors": ["crates/bgp-speaker/src/connection.rs: handle_open_sent_event, handle_open_confirm_event, handle_established_event"]}
{"id": "C64", "title": "KEEPALIVE messages are sent in time", "statement": "While a session has an agreed hold time, a KEEPALIVE is sent at least every third of it.", "quantifier": "all agreed hold times, all jitters, all executions", "why_tests_cant": "Timing over the whole life of a session.", "anchors": ["crates/bgp-speaker/src/connection.rs: set_negotiated_timers, poll_next"]}
{"id": "C65", "title": "Messages of the user are sent in Established only", "statement": "A message handed to the peer by the user is sent on the session if it is Established, and refused or dropped otherwise.", "quantifier": "all messages, all states of a peer", "why_tests_cant": "Users race with the handshake.", "anchors": ["crates/bgp-speaker/src/peer.rs: send_bgp_message"]}
{"id": "C66", "title": "Asking for statistics does not disturb a peer", "statement": "A request for the statistics of a peer does not change what the peer does.", "quantifier": "all states of a peer in which the request arrives", "why_tests_cant": "The request cancels whatever the task was waiting for.", "anchors": ["crates/bgp-speaker/src/peer_controller.rs", "crates/bgp-speaker/src/peer.rs: run"]}
{"id": "C67", "title": "Incoming connections are accepted while there is room", "statement": "A connection that comes in to a started peer is accepted unless the session is established or two connections are alive already.", "quantifier": "all executions, all times at which a connection comes in", "why_tests_cant": "Connections that have ended but were not removed still take up room.", "anchors": ["crates/bgp-speaker/src/peer.rs: accept_connection, handle_connect_event"]}
{"id": "C68", "title": "BMP messages are read back as written", "statement": "A BMP message that the serializer accepts is written to as many octets as it announces, in the message length field too, and a decoder that knows the negotiated settings of its peer reads exactly that message from them, whatever follows.", "quantifier": "all BMP v3 and v4 messages whose parts fit their fields, all settings of the peer, all octets that follow", "why_tests_cant": "Every combination of message type, peer header flags and embedded BGP message.", "anchors": ["crates/bmp-pkt/src/wire/serializer/mod.rs: write, len", "crates/bmp-pkt/src/wire/deserializer/mod.rs: from_wire", "crates/bmp-pkt/src/codec.rs: encode, decode"]}
{"id": "C69", "title": "No BMP octets make the decoder panic", "statement": "From a new decoder on, no sequence of octets makes decoding BMP messages panic or loop, whatever the Peer Up messages negotiated.", "quantifier": "all octet streams", "why_tests_cant": "Needs a state built up by earlier messages and boundary values in nested BGP messages.", "anchors": ["crates/bmp-pkt/src/wire/deserializer/mod.rs", "crates/bmp-pkt/src/wire/deserializer/v3.rs", "crates/bmp-pkt/src/wire/deserializer/v4.rs", "crates/bmp-pkt/src/codec.rs: decode"]}
{"id": "C70", "title": "Decoding BMP is a function of the stream", "statement": "The messages that come out of a BMP decoder are determined by the octets that went in, not by iteration order of hash tables or anything else that differs between runs.", "quantifier": "all octet streams, all iteration orders of hash sets in every message", "why_tests_cant": "Hash iteration order is seeded at random per process; a test sees one order.", "anchors": ["crates/bmp-pkt/src/wire/deserializer/mod.rs: BmpParsingContext::peer_up"]}
{"id": "C71", "title": "Only Peer Up, Peer Down and Termination influence later messages", "statement": "A BMP message of any other type, and octets that are rejected, leave no trace: everything that follows is decoded as if they had not been in the stream.", "quantifier": "all decoder states, all octets of the message, all streams that follow", "why_tests_cant": "Non-interference: compares two runs over unbounded suffixes.", "anchors": ["crates/bmp-pkt/src/wire/deserializer/v4.rs: RouteMonitoringMessage", "crates/bmp-pkt/src/wire/deserializer/mod.rs: BmpParsingContext"]}
{"id": "C72", "title": "No octets of a BMP message are ignored", "statement": "An accepted BMP message accounts for all of its octets: writing what was read gives the octets it was read from.", "quantifier": "all octets accepted as a BMP message", "why_tests_cant": "Inverse direction of round trips: inputs that no serializer produces.", "anchors": ["crates/bmp-pkt/src/wire/deserializer/mod.rs", "crates/bmp-pkt/src/wire/deserializer/v3.rs", "crates/bmp-pkt/src/wire/deserializer/v4.rs"]}
{"id": "C73", "title": "Decoded BMP messages carry the BGP messages they should", "statement": "Whatever octets are received, a decoded route monitoring message carries an UPDATE, a Peer Up two OPENs, a Peer Down with a notification reason a NOTIFICATION and with the Loc-RIB reason a VRF name; v4 TLVs have a group index only where allowed, no VRF name longer than 255 octets and no further BGP message.", "quantifier": "all octets, all decoder states", "why_tests_cant": "The checks are spread over constructors; a parser path that bypasses one shows only with crafted octets.", "anchors": ["crates/bmp-pkt/src/v3.rs: build", "crates/bmp-pkt/src/v4.rs: build", "crates/bmp-pkt/src/wire/deserializer/v3.rs", "crates/bmp-pkt/src/wire/deserializer/v4.rs"]}
{"id": "C74", "title": "A Peer Up that does not carry OPENs is rejected with the offending message type", "statement": "If one of the two BGP messages of a Peer Up is not an OPEN the error says which of them and of what type it was.", "quantifier": "all peer headers, all BGP messages in place of the OPENs", "why_tests_cant": "Error values are rarely asserted for each wrong type in each place.", "anchors": ["crates/bmp-pkt/src/v3.rs: PeerUpNotificationMessage::build", "crates/bmp-pkt/src/wire/deserializer/v3.rs"]}
{"id": "C75", "title": "Flow field values mean what their octets stand for", "statement": "The value of a decoded flow field is the one that RFC 7011 gives to the octets of the field, which are exactly those its template or its length prefix announces; octets that stand for a value are accepted.", "quantifier": "all data types, all lengths of the template, all octets", "why_tests_cant": "Every combination of data type, reduced length and octets.", "anchors": ["crates/ipfix-code-generator/src/generator.rs: generate_ie_deserializer, generate_ie_values_deserializers, generate_ie_deser_main"]}
{"id": "C76", "title": "Flow field values survive being written", "statement": "A field that is written with the length of its template takes as many octets as announced and is read back as it was, or writing it is refused.", "quantifier": "all fields, all lengths", "why_tests_cant": "Boundary values and reduced lengths of every data type.", "anchors": ["crates/ipfix-code-generator/src/generator.rs: generate_pkg_ie_serializers, generate_ie_ser_main", "crates/ipfix-code-generator/src/generator.rs: generate_ie_deserializer"]}
{"id": "C77", "title": "IPFIX messages are read back as written", "statement": "An IPFIX message is written to as many octets as announced, and a decoder reads exactly that message back, whatever follows.", "quantifier": "all messages, all template maps of sender and receiver, all octets that follow", "why_tests_cant": "Depends on templates learnt before, on those of the message and on reduced lengths.", "anchors": ["crates/flow-pkt/src/wire/serializer/ipfix.rs", "crates/flow-pkt/src/wire/deserializer/ipfix.rs", "crates/flow-pkt/src/codec.rs"]}
{"id": "C78", "title": "NetFlow v9 packets are read back as written", "statement": "A NetFlow v9 packet is written to as many octets as announced, with the number of its records in the header, and a decoder reads exactly that packet back, whatever follows.", "quantifier": "all packets, all template maps of sender and receiver, all octets that follow", "why_tests_cant": "Depends on the count of records, padding and templates together.", "anchors": ["crates/flow-pkt/src/wire/serializer/netflow.rs", "crates/flow-pkt/src/wire/deserializer/netflow.rs", "crates/flow-pkt/src/codec.rs"]}
{"id": "C79", "title": "Aligned NetFlow sets end on a multiple of four octets", "statement": "With alignment requested, every written NetFlow set takes a multiple of four octets and can be read back.", "quantifier": "all sets, all template maps", "why_tests_cant": "Lengths of all residues for all kinds of sets.", "anchors": ["crates/flow-pkt/src/wire/serializer/netflow.rs: Set"]}
{"id": "C80", "title": "The record count of a NetFlow header is the number of records", "statement": "An accepted NetFlow packet has as many records, of templates and of data, as its header announces.", "quantifier": "all octets, all template maps", "why_tests_cant": "Needs headers that disagree with the packet.", "anchors": ["crates/flow-pkt/src/wire/deserializer/netflow.rs: NetFlowV9Packet"]}
{"id": "C81", "title": "Flow messages come out of a stream however it is cut", "statement": "From the concatenation of flow messages, well formed or not, the codec gives one result per message, that of the message on its own, however the octets are cut into chunks.", "quantifier": "all sequences of messages, all ways to cut them, all template maps", "why_tests_cant": "Unbounded streams and all cuts.", "anchors": ["crates/flow-pkt/src/codec.rs: FlowInfoCodec::decode"]}
{"id": "C82", "title": "Flow protocols and observation domains do not influence each other", "statement": "What comes out of the IPFIX messages from an exporter does not depend on its NetFlow packets and the other way round, nor does one observation domain depend on another.", "quantifier": "all sequences of datagrams, all template maps", "why_tests_cant": "Non-interference over interleavings.", "anchors": ["crates/flow-pkt/src/codec.rs: FlowInfoCodec", "crates/flow-pkt/src/wire/deserializer/ipfix.rs"]}
{"id": "C83", "title": "Padding of flow sets is ignored", "statement": "Octets of zero that fill up a set are ignored, and nothing else is.", "quantifier": "all sets, all template maps, all paddings shorter than a record", "why_tests_cant": "All lengths of padding behind all records.", "anchors": ["crates/flow-pkt/src/wire/deserializer/ipfix.rs: Set", "crates/flow-pkt/src/wire/deserializer/netflow.rs: Set"]}
{"id": "C84", "title": "A withdrawn template is unknown", "statement": "After an IPFIX template was withdrawn, data that refers to it is treated like data of an unknown template until it is defined again.", "quantifier": "all template maps, all data", "why_tests_cant": "Needs a history of messages.", "anchors": ["crates/flow-pkt/src/wire/deserializer/ipfix.rs: TemplateRecord"]}
{"id": "C85", "title": "NETCONF messages in chunks are put together", "statement": "From a message in the chunked framing of RFC 6242, with any division into chunks, the codec gives the message whose XML is the data of the chunks in order, and leaves what follows the terminator.", "quantifier": "all messages, all divisions into chunks of 1 to 4294967295 octets, all octets that follow", "why_tests_cant": "All divisions and sizes of chunks.", "anchors": ["crates/netconf-proto/src/codec.rs: SshCodec::decode"]}
{"id": "C86", "title": "NETCONF messages are read back as written", "statement": "A hello and messages that the codec encodes are decoded as they were, in order.", "quantifier": "all hellos and messages, all XML readers that invert the writer", "why_tests_cant": "Unbounded sequences and sizes.", "anchors": ["crates/netconf-proto/src/codec.rs: Encoder for SshCodec", "crates/netconf-proto/src/codec.rs: SshCodec::decode"]}
{"id": "C87", "title": "NETCONF messages come out however the stream is cut", "statement": "From a hello and any number of chunked messages the codec gives exactly these, however the octets are cut when they arrive.", "quantifier": "all hellos, all sequences of messages, all divisions into chunks, all ways to cut the stream", "why_tests_cant": "All cuts of unbounded streams.", "anchors": ["crates/netconf-proto/src/codec.rs: SshCodec::decode"]}
{"id": "C88", "title": "Only RFC 6242 framing is accepted", "statement": "Whatever the codec takes for a message is a non-empty sequence of chunks of RFC 6242 followed by the end of chunks, and no octets make the codec panic or loop.", "quantifier": "all octets, all states", "why_tests_cant": "All malformed framings.", "anchors": ["crates/netconf-proto/src/codec.rs: SshCodec::decode"]}
{"id": "C89", "title": "Enrichment returns what was loaded and not ended", "statement": "What the enrichment cache returns for a record was brought by an upsert for the peer and a scope that applies to the record, and no later upsert or deletion of at least its weight for the same scope ended it. For each occurrence of an element for which such a value is left, a value is returned that has at least its weight; nothing is returned just when none is left.", "quantifier": "all histories of operations, all peers, domains and records", "why_tests_cant": "All histories of upserts and deletions with all weights.", "anchors": ["crates/collector/src/flow/enrichment/cache.rs: EnrichmentCache::apply_enrichment", "crates/collector/src/flow/enrichment/cache.rs: EnrichmentCache::get_enrichment_fields"]}
{"id": "C90", "title": "Enrichment prefers higher weights and then more specific scopes", "statement": "For each occurrence of an element exactly one value is returned: that of the highest weight among the scopes that apply, and at equal weights that of the more specific scope.", "quantifier": "all histories of operations, all peers, domains and records", "why_tests_cant": "All combinations of scopes and weights.", "anchors": ["crates/collector/src/flow/enrichment/cache.rs: PeerMetadata::get_enrichment_fields", "crates/collector/src/flow/enrichment/cache.rs: PeerMetadata::merge_fields"]}
{"id": "C91", "title": "Enrichment of peers and domains is separate", "statement": "What a record gets depends only on operations for its peer and for its domain or for all domains.", "quantifier": "all histories of operations, all peers, domains and records", "why_tests_cant": "All interleavings of operations for other peers and domains.", "anchors": ["crates/collector/src/flow/enrichment/cache.rs: EnrichmentCache::apply_enrichment", "crates/collector/src/flow/enrichment/cache.rs: EnrichmentCache::get_enrichment_fields"]}
{"id": "C92", "title": "An upsert can be undone", "statement": "After an upsert and the deletion that is derived from it, the cache returns what it returned before.", "quantifier": "all histories of operations, all upserts, all records", "why_tests_cant": "All states in which an upsert can arrive.", "anchors": ["crates/collector/src/flow/enrichment/mod.rs: From<UpsertPayload> for DeletePayload", "crates/collector/src/flow/enrichment/cache.rs: EnrichmentCache::delete"]}
{"id": "C93", "title": "Sources of different weights can load in any order", "statement": "If upserts never bring different values for the same place with the same weight, neither their order nor repetition changes what is returned.", "quantifier": "all sets of upserts, all orders and repetitions", "why_tests_cant": "All orders of unboundedly many operations.", "anchors": ["crates/collector/src/flow/enrichment/cache.rs: EnrichmentCache::upsert"]}
{"id": "C94", "title": "The enrichment cache gives up what is deleted", "statement": "The number of peers that the cache reports is the number of peers for which it holds a value.", "quantifier": "all histories of operations", "why_tests_cant": "Empty maps left behind can arise only by certain histories.", "anchors": ["crates/collector/src/flow/enrichment/cache.rs: EnrichmentCache::delete", "crates/collector/src/flow/enrichment/cache.rs: EnrichmentCache::peer_count"]}
{"id": "C95", "title": "Enriched packets keep their data", "statement": "For each packet received the actor sends one for the same peer, in order, with the same header and the data records without scope fields in order. Each record has its own fields, then those that the operations received before give for it, then the name of the collector.", "quantifier": "all interleavings of operations and packets, all IPFIX and NetFlow v9 packets", "why_tests_cant": "All interleavings and packets.", "anchors": ["crates/collector/src/flow/enrichment/actor.rs: EnrichmentActor::enrich_ipfix_packet", "crates/collector/src/flow/enrichment/actor.rs: EnrichmentActor::enrich_netflowv9_packet", "crates/collector/src/flow/enrichment/actor.rs: EnrichmentActor::run"]}
{"id": "C96", "title": "Aggregation reports each group of flow records once", "statement": "For the packets it has received, the aggregation actor sends exactly one packet for each group of records that come from one exporter in one protocol, were exported in the same minute, agree on the key fields and are not too late. The packet reports the common values of the key fields, the combined values of the aggregated fields, the number of records, the first and the last export time, the window, the exporter, and all ports, domains and templates. Each record that is not too late is counted in one packet, and the packets are numbered from 0 on.", "quantifier": "all accepted configurations, all sequences of IPFIX and NetFlow v9 packets, all orders of hash maps, windows and tasks", "why_tests_cant": "All sequences of packets, groupings and interleavings.", "anchors": ["crates/collector/src/flow/aggregation/aggregator.rs: explode", "crates/collector/src/flow/aggregation/aggregator.rs: FlowCacheRecord::reduce", "crates/collector/src/flow/aggregation/aggregator.rs: into_flowinfo_with_extra_fields", "crates/collector/src/flow/aggregation/actor.rs: AggregationActor::run"]}
{"id": "C97", "title": "Aggregated fields mean what the operation says", "statement": "The value reported for an aggregated field is the sum, the least, the greatest or the bitwise or of the values in the records of the group, whatever the order in which they arrived.", "quantifier": "all accepted configurations, all groups of records, all orders", "why_tests_cant": "All numbers of records with all values.", "anchors": ["crates/ipfix-code-generator/src/generator.rs: add_assign_field", "crates/ipfix-code-generator/src/generator.rs: min_assign_field", "crates/ipfix-code-generator/src/generator.rs: max_assign_field", "crates/ipfix-code-generator/src/generator.rs: bitwise_or_assign_field", "crates/collector/src/flow/aggregation/aggregator.rs: FlowCacheRecord::reduce"]}
{"id": "C98", "title": "An accepted aggregation can be carried out", "statement": "A configuration is accepted if and only if the window is not empty, the lateness does not exceed it and each operation is one that can be applied to the values of the element; the key fields and aggregated fields are those it lists.", "quantifier": "all configurations", "why_tests_cant": "All combinations of elements, occurrences and operations.", "anchors": ["crates/collector/src/flow/aggregation/config.rs: AggregationConfig::validate", "crates/collector/src/flow/aggregation/config.rs: TryInto<UnifiedConfig> for AggregationConfig", "crates/collector/src/flow/aggregation/config.rs: validate_operation_compatibility"]}
{"id": "C99", "title": "Packets of flow records are late as a whole", "statement": "Records are left out of the aggregation only with their whole packet, and only if an earlier packet with records from the same address has an export time that is ahead by more than the lateness. The records reported and those left out are all records received.", "quantifier": "all sequences of packets, all latenesses", "why_tests_cant": "All sequences of packets from any exporters.", "anchors": ["crates/collector/src/flow/aggregation/actor.rs: AggregationActor::run", "crates/collector/src/flow/aggregation/aggregator.rs: explode", "crates/analytics/src/aggregation.rs: process_item"]}
{"id": "C100", "title": "Stopping the aggregation loses nothing received", "statement": "If the aggregation actor is told to stop, the packets it has sent report complete groups, and each record received before is reported.", "quantifier": "all sequences of packets, stopped at any time", "why_tests_cant": "All times at which the command can arrive.", "anchors": ["crates/collector/src/flow/aggregation/actor.rs: AggregationActor::run"]}
{"id": "C101", "title": "Counters of sampled flows are multiplied by the sampling ratio", "statement": "If a flow record says how its packets were sampled, renormalization replaces each of its octet and packet counters by the counter times the number of packets there were for each packet selected, rounded down and at most the largest counter. What the record says is the method of the selector algorithm, sampler mode or sampling algorithm that it names, in this order, with the last value of each parameter, or else the method that its parameters imply.", "quantifier": "all records with all sampling parameters and counters", "why_tests_cant": "All combinations of parameters and all counters, with floating point rounding.", "anchors": ["crates/collector/src/flow/renormalization/logic.rs: calculate_renormalization_factor", "crates/collector/src/flow/renormalization/logic.rs: calculate_count_based_k", "crates/collector/src/flow/renormalization/logic.rs: calculate_random_n_out_of_n_k", "crates/collector/src/flow/renormalization/logic.rs: calculate_probabilistic_k", "crates/collector/src/flow/renormalization/logic.rs: renormalize_fields"]}
{"id": "C102", "title": "Renormalization loses no traffic", "statement": "No counter of a flow record is smaller after renormalization than before, and sampling parameters that cannot be those of a sample leave the record as it is.", "quantifier": "all records with all sampling parameters and counters", "why_tests_cant": "All values of the parameters and counters.", "anchors": ["crates/collector/src/flow/renormalization/logic.rs: renormalize_fields", "crates/collector/src/flow/renormalization/logic.rs: calculate_renormalization_factor"]}
{"id": "C103", "title": "Renormalization changes nothing but counters", "statement": "For each packet the renormalization actor sends one packet to the same peer, in the order of arrival and until it stops. It has the same header, and the data records without scope fields. Each record has its fields in the same order, in which only octet and packet counters differ, and a field that says that it was renormalized behind them exactly if it has counters and tells how it was sampled.", "quantifier": "all sequences of IPFIX and NetFlow v9 packets, stopped at any time", "why_tests_cant": "All packets with all sets, records and fields.", "anchors": ["crates/collector/src/flow/renormalization/logic.rs: renormalize", "crates/collector/src/flow/renormalization/logic.rs: renormalize_fields", "crates/collector/src/flow/renormalization/actor.rs: RenormalizationActor::run"]}
{"id": "C104", "title": "Renormalization keeps the order of counters", "statement": "Records that announce the same sampling are changed in the same way. A counter that is not smaller than another is not smaller afterwards either, and a counter of zero stays zero.", "quantifier": "all pairs of records and counters", "why_tests_cant": "All pairs of counters, with floating point rounding and saturation.", "anchors": ["crates/collector/src/flow/renormalization/logic.rs: renormalize_fields"]}
{"id": "C105", "title": "A record is renormalized once", "statement": "A record that is marked as renormalized is not changed when it is renormalized again.", "quantifier": "all records", "why_tests_cant": "All records and all repetitions.", "anchors": ["crates/collector/src/flow/renormalization/logic.rs: renormalize_fields"]}
{"id": "C106", "title": "Option records become updates of what is known about the exporter", "statement": "Each option record of an IPFIX or NetFlow v9 packet leads to one update of the enrichment of its exporter and observation domain for each thing that it tells: the names and descriptions of an interface or the name and route distinguisher of a VRF, for each way in which packets pass it, or otherwise all of its fields but for padding. Nothing else leads to an update.", "quantifier": "all packets with any option records, and any order in which hash maps yield their entries", "why_tests_cant": "All records, with repeated elements and elements in scope and fields, and all iteration orders of hash maps.", "anchors": ["crates/collector/src/inputs/flow_options/normalize.rs: OptionsDataRecord::into_normalized_records", "crates/collector/src/inputs/flow_options/handlers.rs: handle_option_record"]}
{"id": "C107", "title": "What an exporter announces is added to its flows", "statement": "What an option record tells is added to the exporter's flow records of the observation domain that have the fields of its scope, until something of equal or higher weight changes or deletes it.", "quantifier": "all packets, histories of enrichment operations before and after, and flow records", "why_tests_cant": "All histories of operations and all records.", "anchors": ["crates/collector/src/inputs/flow_options/normalize.rs: OptionsDataRecord", "crates/collector/src/inputs/flow_options/handlers.rs: handle_option_record", "crates/collector/src/flow/enrichment/cache.rs: get_enrichment_fields"]}
{"id": "C108", "title": "Option records of NetFlow v9 have the effect of those of IPFIX", "statement": "What a NetFlow v9 option record tells for the scope of an interface is known for the flows that come in through the interface and for those that go out through it, and the system and line card scopes are those of the exporter and of lineCardId.", "quantifier": "all NetFlow v9 packets", "why_tests_cant": "All scopes and fields of records.", "anchors": ["crates/collector/src/inputs/flow_options/normalize.rs: TryFrom<netflow::DataRecord> for OptionsDataRecord", "crates/collector/src/inputs/flow_options/actor.rs: run"]}
{"id": "C109", "title": "All caches learn from option records in order", "statement": "Each enrichment actor receives the operations from option records in the order in which the packets came and the records are in them, none twice, and all of them if it takes them in time. Records that cannot be used make no difference to the others.", "quantifier": "all sequences of packets, numbers of enrichment actors, failures to hand over and times of stopping", "why_tests_cant": "All sequences of packets and all schedules.", "anchors": ["crates/collector/src/inputs/flow_options/actor.rs: run", "crates/collector/src/inputs/flow_options/actor.rs: send_enrichment_operations"]}
{"id": "C110", "title": "Announced sampling is applied to the counters of flows", "statement": "If an option record announces that one packet of each k was selected, the counters of the flow records it is about are multiplied by k on the way through enrichment and renormalization.", "quantifier": "all option records, histories of enrichment operations, flow records and counters", "why_tests_cant": "Composition of three actors, for all values of the counters.", "anchors": ["crates/collector/src/inputs/flow_options/normalize.rs: normalize_sampling_type", "crates/collector/src/flow/enrichment/actor.rs: enrich", "crates/collector/src/flow/renormalization/logic.rs: renormalize_fields"]}
{"id": "C111", "title": "Nothing is enriched from lines that are gone", "statement": "Whatever happened to the files of the configuration, a value that is added to flow records was brought by another source, or by a line that stands in one of the files now: after a line or a file is removed, nothing of it is left.", "quantifier": "all contents and histories of changes, removals and failures to read of any number of files, in any interleaving with operations of other sources", "why_tests_cant": "All histories of files, with all orders of sets and interleavings.", "anchors": ["crates/collector/src/inputs/files/actor.rs: handle_file_system_event", "crates/collector/src/inputs/files/actor.rs: handle_file_change", "crates/collector/src/inputs/files/processor.rs: process_file_changes", "crates/collector/src/inputs/files/processor.rs: purge_file"]}
{"id": "C112", "title": "What the files say is known", "statement": "A value that a line of a file of the configuration brings is used for the flows it is about as long as the line stands in a file, unless another source or another line for the same overrides it; the effect of the files is that of reading them anew.", "quantifier": "all contents and histories of files, in any interleaving with operations of other sources", "why_tests_cant": "All histories of files.", "anchors": ["crates/collector/src/inputs/files/actor.rs: handle_file_system_event", "crates/collector/src/inputs/files/processor.rs: process_file_changes", "crates/collector/src/inputs/files/processor.rs: purge_file", "crates/collector/src/flow/enrichment/cache.rs: apply_enrichment"]}
{"id": "C113", "title": "Lines of files are understood", "statement": "The operations that are sent for a file are exactly those of its lines that were added or removed: comments, white space and repeated lines make no difference, and a wrong line makes no difference to the others. A line of a pmacct map brings the identifier it gives, as a route distinguisher of RFC 4364 or as a number, for the exporter and the interface or VPN it names.", "quantifier": "all texts of files and all changes", "why_tests_cant": "All texts, including all forms of numbers, white space and settings.", "anchors": ["crates/collector/src/inputs/files/processor.rs: process_file_changes", "crates/collector/src/inputs/files/formats/pmacct_maps.rs: PmacctMapEntry::from_str", "crates/collector/src/inputs/files/formats/pmacct_maps.rs: PmacctMapEntry::to_enrichment_operations", "crates/collector/src/inputs/files/handlers.rs: PmacctMapsHandler::handle_line"]}
{"id": "C114", "title": "Identifiers of pmacct maps reach the flows", "statement": "A flow record of the exporter of a line of a pmacct map that has the interface or VPN of the line gets the identifier of such a line, under the element for ingress or egress.", "quantifier": "all texts and histories of files, operations of other sources and flow records", "why_tests_cant": "Composition of the parser, the tracking of files and the cache, for all histories.", "anchors": ["crates/collector/src/inputs/files/formats/pmacct_maps.rs: PmacctMapEntry::to_enrichment_operations", "crates/collector/src/inputs/files/processor.rs: process_file_changes", "crates/collector/src/flow/enrichment/cache.rs: get_enrichment_fields"]}
{"id": "C115", "title": "Flows are not enriched from nodes that left the inventory", "statement": "Whatever messages an inventory sent, a value that is added to flow records was brought by another source, or is the name or platform of a node as the last message about it says: after a node is deleted, renamed or gets another address, nothing of what it was is left.", "quantifier": "all sequences of messages of an inventory, readable or not, in any interleaving with operations of other sources", "why_tests_cant": "All histories of an inventory, in all interleavings.", "anchors": ["crates/collector/src/inputs/kafka/handlers.rs: SonataHandler::handle_message", "crates/collector/src/inputs/kafka/actor.rs: run", "crates/collector/src/flow/enrichment/cache.rs: apply_enrichment"]}
{"id": "C116", "title": "Nodes of the inventory are known", "statement": "The name and the platform of a node in the inventory are known for the flows of its address as long as the node is in the inventory, unless another source overrides them.", "quantifier": "all sequences of messages of an inventory, in any interleaving with operations of other sources", "why_tests_cant": "All histories of an inventory.", "anchors": ["crates/collector/src/inputs/kafka/handlers.rs: SonataHandler::handle_message", "crates/collector/src/flow/enrichment/cache.rs: apply_enrichment"]}
{"id": "C117", "title": "YANG push messages have the labels of their peer", "statement": "There is one telemetry message for each notification with contents, in their order, with its payload, time and peer. Its labels are, for each name, the value of the highest weight that an operation before it brought for the address of the peer and that no later operation of at least this weight replaced or deleted; there are none if nothing of the address is left.", "quantifier": "all sequences of operations and notifications", "why_tests_cant": "All histories of operations, with labels that repeat names and weights in any order.", "anchors": ["crates/collector/src/yang_push/enrichment.rs: apply_enrichment", "crates/collector/src/yang_push/enrichment.rs: process_decoded_udp_notif_packet", "crates/collector/src/yang_push/enrichment.rs: run"]}
{"id": "C118", "title": "YANG push messages tell their subscription", "statement": "A telemetry message carries the metadata of its subscription, i.e. its identifier, filters, stop time, transport, encoding, purpose, trigger, modules and content identifier, unless the subscription is not known.", "quantifier": "all sequences of operations and notifications and all subscriptions", "why_tests_cant": "All subscriptions.", "anchors": ["crates/yang-push/src/model/telemetry.rs: YangPushSubscriptionMetadata::from", "crates/yang-push/src/model/telemetry.rs: FilterSpec::from", "crates/collector/src/yang_push/enrichment.rs: process_decoded_udp_notif_packet"]}
{"id": "C119", "title": "The inventory labels YANG push messages", "statement": "Messages of YANG push from the address of a node in the inventory are labelled with its name and platform as the last message about it says, and with nothing of nodes that left the inventory or moved to another address.", "quantifier": "all sequences of messages of an inventory, in any interleaving with operations of other sources", "why_tests_cant": "All histories of an inventory, in all interleavings.", "anchors": ["crates/collector/src/inputs/kafka/handlers.rs: SonataHandler::handle_message", "crates/collector/src/yang_push/enrichment.rs: apply_enrichment"]}
{"id": "C120", "title": "A notification with a content identifier is valid", "statement": "A YANG push notification that is forwarded with a content identifier was received from the peer and about the subscription that it is forwarded with, and its payload is valid by the schemas of the last response about that subscription. Once a response brought schemas for a subscription that is not described otherwise, each further notification about it is forwarded with its content identifier when it is valid, and dropped with a warning when it is not.", "quantifier": "all sequences of packets and responses to lookups, all schemas and validity decisions", "why_tests_cant": "All interleavings of packets of all peers with late and repeated responses, of schemas that do not load.", "anchors": ["crates/yang-push/src/validation/mod.rs: process_packet", "crates/yang-push/src/validation/mod.rs: process_schema_response", "crates/yang-push/src/validation/mod.rs: validate_packet"]}
{"id": "C121", "title": "A notification is forwarded at most once", "statement": "A notification that was received n times is forwarded, dropped with a warning and held at most n times altogether, though notifications are held and processed again with each response.", "quantifier": "all sequences of packets and responses to lookups, all limits", "why_tests_cant": "All interleavings; packets that are held and released repeatedly.", "anchors": ["crates/yang-push/src/validation/mod.rs: process_packet", "crates/yang-push/src/validation/mod.rs: process_schema_response", "crates/yang-push/src/validation/mod.rs: cache_packet"]}
{"id": "C122", "title": "No notification is lost silently", "statement": "Each notification that is received is forwarded, dropped with a warning, or still held for a response.", "quantifier": "all sequences of packets and responses to lookups, all limits", "why_tests_cant": "All interleavings of descriptions that change with responses that are late.", "anchors": ["crates/yang-push/src/validation/mod.rs: check_subscription_info", "crates/yang-push/src/validation/mod.rs: cache_packet", "crates/yang-push/src/validation/mod.rs: process_schema_response"]}
{"id": "C123", "title": "Notifications wait for their schemas and keep their order", "statement": "While the schemas of a subscription are looked up its notifications are held, and they are forwarded in the order in which they were received once the response is there.", "quantifier": "all sequences of packets and responses to lookups", "why_tests_cant": "All interleavings.", "anchors": ["crates/yang-push/src/validation/mod.rs: process_packet", "crates/yang-push/src/validation/mod.rs: process_schema_response"]}
{"id": "C124", "title": "What is held is limited", "statement": "Not more packets than configured are held for a peer and for a subscription, and not more subscriptions of a peer are remembered than that.", "quantifier": "all sequences of packets and responses to lookups, all limits", "why_tests_cant": "All histories; limits are exceeded only after as many packets.", "anchors": ["crates/yang-push/src/validation/mod.rs: cache_packet", "crates/yang-push/src/validation/mod.rs: check_subscription_info"]}
{"id": "C125", "title": "Peers do not interfere", "statement": "What is forwarded, looked up and dropped of the notifications of a publisher does not depend on other publishers.", "quantifier": "all sequences of packets and responses to lookups", "why_tests_cant": "Compares all pairs of histories that differ in other publishers.", "anchors": ["crates/yang-push/src/validation/mod.rs: process_packet", "crates/yang-push/src/validation/mod.rs: process_schema_response"]}
{"id": "C126", "title": "Notifications are forwarded with where they came from", "statement": "A notification is forwarded with the address and port of the peer that sent it, and the identifier of the subscription that it is about.", "quantifier": "all sequences of packets and responses to lookups", "why_tests_cant": "All histories.", "anchors": ["crates/yang-push/src/validation/mod.rs: process_packet", "crates/yang-push/src/validation/mod.rs: check_subscription_info"]}
{"id": "C127", "title": "Schemas are looked up once", "statement": "The schemas of a subscription are looked up once, until it is described otherwise.", "quantifier": "all sequences of packets and responses to lookups", "why_tests_cant": "All histories; that it ends can not be seen from finite runs.", "anchors": ["crates/yang-push/src/validation/mod.rs: process_packet", "crates/yang-push/src/validation/mod.rs: check_subscription_info", "crates/yang-push/src/validation/mod.rs: process_schema_response"]}
{"id": "C128", "title": "A response lets notifications out", "statement": "With the response about a subscription as it was described last, each notification that is held for it is forwarded, or dropped with a warning because it is not valid.", "quantifier": "all sequences of packets and responses to lookups", "why_tests_cant": "All histories and all positions of packets in what is held.", "anchors": ["crates/yang-push/src/validation/mod.rs: process_schema_response", "crates/yang-push/src/validation/mod.rs: process_packet"]}
{"id": "C129", "title": "A restart does not lose YANG libraries", "statement": "A collector that is started again over the directory of its cache of YANG libraries finds the same libraries for each description of a subscription, for each content identifier and for each subscription number of a peer, with the schemas they were put with.", "quantifier": "all histories of putting, removing and restarting, all libraries and schemas, all orders of directories", "why_tests_cant": "All histories; the order in which directories are read can not be chosen by a test.", "anchors": ["crates/yang-push/src/cache/storage.rs: YangLibraryCache::from_disk", "crates/yang-push/src/cache/storage.rs: YangLibraryReference::save_to_disk", "crates/yang-push/src/cache/storage.rs: YangLibraryReference::load_schemas", "crates/netconf-proto/src/yanglib.rs: load_schemas"]}
{"id": "C130", "title": "What is found for a description was put for it last", "statement": "A YANG library can be put into the cache at any time, and then is what is found for the description of the subscription it was put for, until it is removed; nothing else is found.", "quantifier": "all histories of putting, removing and restarting, all descriptions and libraries", "why_tests_cant": "All histories of descriptions that share libraries.", "anchors": ["crates/yang-push/src/cache/storage.rs: put_yang_library", "crates/yang-push/src/cache/storage.rs: get_by_subscription_info", "crates/yang-push/src/cache/storage.rs: get_by_content_id"]}
{"id": "C131", "title": "What is found for a subscription number is its description", "statement": "What is found for a subscription number of a peer is the description that was put for it last, with its library.", "quantifier": "all histories of putting, removing and restarting", "why_tests_cant": "All histories of subscriptions that are described anew.", "anchors": ["crates/yang-push/src/cache/storage.rs: put_yang_library", "crates/yang-push/src/cache/storage.rs: get_by_subscription_id"]}
{"id": "C132", "title": "Removing a library removes that library", "statement": "A YANG library that is removed by its content identifier is found no more in any way, and all others are found as before.", "quantifier": "all histories, all content identifiers", "why_tests_cant": "All histories of libraries that are shared.", "anchors": ["crates/yang-push/src/cache/storage.rs: remove_by_content_id"]}
{"id": "C133", "title": "Removing a description removes that description", "statement": "A description that is removed is found no more, others are found as before, and a library is kept exactly as long as a description has it.", "quantifier": "all histories, all descriptions", "why_tests_cant": "All histories of libraries that are shared.", "anchors": ["crates/yang-push/src/cache/storage.rs: remove_by_subscription_info", "crates/yang-push/src/cache/storage.rs: remove_subscription_info"]}
{"id": "C134", "title": "Every lookup of a YANG library is answered", "statement": "One who looks up the YANG library of a subscription is answered exactly once for each lookup, once the device was asked.", "quantifier": "all interleavings of lookups, ends of workers and closed channels", "why_tests_cant": "All interleavings; that an answer never comes can not be seen from finite runs.", "anchors": ["crates/yang-push/src/cache/actor.rs: process_request", "crates/yang-push/src/cache/actor.rs: process_worker_result", "crates/yang-push/src/cache/actor.rs: cleanup_closed_senders"]}
{"id": "C135", "title": "A YANG library is fetched once", "statement": "A device is asked for the YANG library of a subscription only if nobody is asking it already and the library is not there.", "quantifier": "all interleavings of lookups, ends of workers and closed channels", "why_tests_cant": "All interleavings.", "anchors": ["crates/yang-push/src/cache/actor.rs: process_request", "crates/yang-push/src/cache/actor.rs: process_worker_result"]}
{"id": "C136", "title": "Answers fit what is looked up", "statement": "Each answer of the cache of YANG libraries is to one who asked and about the subscription they asked for; its library was fetched for the same description, and it has none only if fetching failed.", "quantifier": "all interleavings of lookups, ends of workers and closed channels, over all caches on disk that nothing was removed from", "why_tests_cant": "All interleavings of lookups by description and by number.", "anchors": ["crates/yang-push/src/cache/actor.rs: process_request", "crates/yang-push/src/cache/actor.rs: process_worker_result", "crates/yang-push/src/cache/storage.rs: put_yang_library"]}
{"id": "C137", "title": "Notifications are validated with the library of their subscription", "statement": "In a collector whose validation is answered by the cache, a notification that is forwarded with a content identifier is valid by the schemas of a library with that content identifier, which was fetched for the same description of its subscription.", "quantifier": "all interleavings of packets, responses, lookups and fetches", "why_tests_cant": "All interleavings of both actors.", "anchors": ["crates/yang-push/src/validation/mod.rs: process_packet", "crates/yang-push/src/validation/mod.rs: process_schema_response", "crates/yang-push/src/cache/actor.rs: process_request", "crates/yang-push/src/cache/actor.rs: process_worker_result"]}
{"id": "C138", "title": "Loading of a YANG library ends", "statement": "Loading the YANG library of a device ends whatever the device answers, even if modules import, include or augment each other in circles, and the device is asked at most once for the schema of each name, in a revision that its library lists.", "quantifier": "all libraries, devices, schemas, dependencies, checkers and modules asked for", "why_tests_cant": "All graphs of modules, with circles; that something ends can not be seen from finite runs.", "anchors": ["crates/netconf-proto/src/client.rs: load_from_modules"]}
{"id": "C139", "title": "What is loaded of a YANG library is what is needed", "statement": "When loading of a YANG library succeeds, there are schemas for exactly the modules asked for and all they need, directly or not, by imports, includes, deviations and augmentations that the library of the device lists, each as the device gave it in the listed revision; the library that is made lists those modules as the device does.", "quantifier": "all libraries, devices, schemas, dependencies, checkers and modules asked for", "why_tests_cant": "All graphs of modules.", "anchors": ["crates/netconf-proto/src/client.rs: load_from_modules", "crates/netconf-proto/src/yanglib.rs: ModuleSetBuilder::build_yang_lib"]}
{"id": "C140", "title": "Loading of a YANG library succeeds", "statement": "If the library of a device lists the modules that are asked for, and the device gives a readable schema for all that it lists, loading succeeds and a YANG library is made.", "quantifier": "all libraries, devices, schemas, dependencies, checkers and modules asked for", "why_tests_cant": "All graphs of modules and submodules, and all orders they are visited in.", "anchors": ["crates/netconf-proto/src/client.rs: load_from_modules", "crates/netconf-proto/src/yanglib.rs: add_submodule_for_module", "crates/netconf-proto/src/yanglib.rs: add_import_only_module", "crates/netconf-proto/src/yanglib.rs: ModuleSetBuilder::build_yang_lib"]}
{"id": "C141", "title": "Content identifiers tell YANG libraries apart", "statement": "Two YANG libraries that are made by the collector and have other schemas or features have other content identifiers, as far as the digest tells texts apart.", "quantifier": "all libraries, schemas and features", "why_tests_cant": "All pairs of libraries.", "anchors": ["crates/netconf-proto/src/yanglib.rs: ModuleSetBuilder::build_yang_lib"]}
{"id": "C142", "title": "A YANG library can be extended with another", "statement": "With the checker that allows all, a YANG library can be extended with another whenever all their modules have schemas: the schemas and features of the other are preferred, what it does not list is left as it was, and a library is made.", "quantifier": "all pairs of libraries, schemas and features", "why_tests_cant": "All pairs of libraries that share modules and submodules.", "anchors": ["crates/netconf-proto/src/yanglib.rs: YangLibrary::into_module_set_builder", "crates/netconf-proto/src/yanglib.rs: extend_from_yang_lib", "crates/netconf-proto/src/yanglib.rs: PermissiveVersionChecker", "crates/collector/src/publishers/kafka_yang.rs: register_schema"]}
{"id": "C143", "title": "Reading of YANG schemas ends", "statement": "Reading the metadata or the dependencies of a YANG schema ends, with a result or an error, whatever the text.", "quantifier": "all texts, of any length", "why_tests_cant": "That something ends for all texts can not be seen from finitely many texts; a few characters make the difference.", "anchors": ["crates/netconf-proto/src/yangparser.rs: extract_yang_dependencies", "crates/netconf-proto/src/yangparser.rs: extract_yang_metadata", "crates/netconf-proto/src/yangparser.rs: skip_statement"]}
{"id": "C144", "title": "Reading of YANG schemas does not panic", "statement": "Reading the metadata or the dependencies of a YANG schema does not panic, whatever the text.", "quantifier": "all texts, with all Unicode characters", "why_tests_cant": "Panics depend on where characters of several bytes are in a text, of which there is no end.", "anchors": ["crates/netconf-proto/src/yangparser.rs: extract_yang_dependencies", "crates/netconf-proto/src/yangparser.rs: extract_yang_metadata", "crates/netconf-proto/src/yangparser.rs: peek_identifier", "crates/netconf-proto/src/yangparser.rs: peek_chars"]}
{"id": "C145", "title": "The dependencies of YANG schemas are read as they are written", "statement": "For each valid YANG module the imports and includes read are those that are written in it, all, in their order, with their names, prefixes and revisions, and neither comments nor strings are taken for them.", "quantifier": "all valid YANG modules", "why_tests_cant": "All ways to write a module: white space, comments, quotes, escapes, strings put together, nested statements.", "anchors": ["crates/netconf-proto/src/yangparser.rs: extract_yang_dependencies", "crates/netconf-proto/src/yangparser.rs: parse_import", "crates/netconf-proto/src/yangparser.rs: parse_include", "crates/netconf-proto/src/yangparser.rs: read_string_or_identifier"]}
{"id": "C146", "title": "The metadata of YANG schemas is read as it is written", "statement": "For each valid YANG module the name, namespace, prefix and latest revision read are those that are written in it first, and for each submodule the name, the module it belongs to and the prefix it has there.", "quantifier": "all valid YANG modules and submodules", "why_tests_cant": "All ways to write a module: white space, comments, quotes, escapes, strings put together, nested statements.", "anchors": ["crates/netconf-proto/src/yangparser.rs: extract_yang_metadata", "crates/netconf-proto/src/yangparser.rs: parse_metadata"]}
{"id": "C147", "title": "All schemas of a YANG library are registered, with their references", "statement": "If registering of a YANG library succeeds, each module and each submodule included has been registered once, before all that refer to it, with its text, its features and references to exactly what it imports, includes, augments and deviates from, by the subjects and versions the registry answered; at last the root module is registered with references to what it needs and to all that nothing else refers to.", "quantifier": "all libraries, schemas, roots, prefixes, and registries that may refuse, forget or answer as they like", "why_tests_cant": "The modules of devices depend on each other in hundreds of ways, of which tests have a few; registries may answer anything.", "anchors": ["crates/netconf-proto/src/yanglib.rs: register_schema", "crates/netconf-proto/src/yanglib.rs: to_graph", "crates/netconf-proto/src/yanglib.rs: add_deps_to_graph", "crates/netconf-proto/src/yanglib.rs: register_with_retry"]}
{"id": "C148", "title": "All registered schemas are reached from the root", "statement": "If registering of a YANG library succeeds, all that was registered can be reached by references from the schema whose identifier is answered.", "quantifier": "all libraries, schemas, roots and registries", "why_tests_cant": "That something is reached in all graphs needs an induction over graphs.", "anchors": ["crates/netconf-proto/src/yanglib.rs: register_schema", "crates/netconf-proto/src/yanglib.rs: to_graph", "crates/netconf-proto/src/yanglib.rs: add_deps_to_graph", "crates/netconf-proto/src/yanglib.rs: register_with_retry"]}
{"id": "C149", "title": "Libraries with all their schemas are registered", "statement": "A YANG library that lists modules and submodules as RFC 8525 says, with a schema for each, is registered by a registry that takes all.", "quantifier": "all such libraries, registries and roots", "why_tests_cant": "There is no end of libraries; tests use those of one device.", "anchors": ["crates/netconf-proto/src/yanglib.rs: register_schema", "crates/netconf-proto/src/yanglib.rs: to_graph", "crates/netconf-proto/src/yanglib.rs: add_deps_to_graph", "crates/netconf-proto/src/yanglib.rs: register_with_retry"]}
{"id": "C150", "title": "Registering of YANG libraries ends", "statement": "Registering of a YANG library ends, with an identifier or an error, whatever the schemas.", "quantifier": "all libraries, schemas and registries", "why_tests_cant": "That something ends for all graphs can not be seen from finitely many.", "anchors": ["crates/netconf-proto/src/yanglib.rs: register_schema", "crates/netconf-proto/src/yanglib.rs: to_graph", "crates/netconf-proto/src/yanglib.rs: add_deps_to_graph", "crates/netconf-proto/src/yanglib.rs: register_with_retry"]}
{"id": "C151", "title": "Registering of YANG libraries does not panic", "statement": "Registering of a YANG library does not panic, whatever is listed and whatever schemas are there.", "quantifier": "all libraries, schemas and registries", "why_tests_cant": "Libraries and schemas come from devices and files that may be broken in endless ways.", "anchors": ["crates/netconf-proto/src/yanglib.rs: register_schema", "crates/netconf-proto/src/yanglib.rs: to_graph", "crates/netconf-proto/src/yanglib.rs: add_deps_to_graph", "crates/netconf-proto/src/yanglib.rs: register_with_retry"]}
{"id": "C152", "title": "References have the versions of the registry", "statement": "Each reference of a registered schema has the subject and version that the registry has given to what is referred to, also with registries that answer with identifiers only.", "quantifier": "all libraries, schemas and registries", "why_tests_cant": "What registries answer and when they refuse is up to them and their history.", "anchors": ["crates/netconf-proto/src/yanglib.rs: register_with_retry", "crates/netconf-proto/src/yanglib.rs: register_schema"]}
{"id": "C153", "title": "No schema refers to itself", "statement": "No schema that is registered has a reference to the module or submodule it is the schema of.", "quantifier": "all libraries, schemas and registries", "why_tests_cant": "Depends on the graph of all modules.", "anchors": ["crates/netconf-proto/src/yanglib.rs: register_schema"]}
{"id": "C154", "title": "Messages are published to Kafka as JSON once, in their order", "statement": "Of the messages that a JSON publisher takes each that can be serialized is queued with its key and payload at most once, in the order of messages, and nothing else is; it is left out only if Kafka refuses it or its queue is full at 20 attempts.", "quantifier": "all messages, serializers, sequences of events and answers of Kafka", "why_tests_cant": "Queues fill up at any time; order and duplicates depend on all interleavings of retries.", "anchors": ["crates/collector/src/publishers/kafka_json.rs: send", "crates/collector/src/publishers/kafka_json.rs: run"]}
{"id": "C155", "title": "Messages published to Kafka as JSON are accounted for", "statement": "The counters of a JSON publisher add up: each message received is counted as sent, as an error of decoding or as an error of sending, once, and those sent are those queued.", "quantifier": "all messages, serializers, sequences of events and answers of Kafka", "why_tests_cant": "Every path of retries and errors has to count exactly once.", "anchors": ["crates/collector/src/publishers/kafka_json.rs: send", "crates/collector/src/publishers/kafka_json.rs: run"]}
{"id": "C156", "title": "Retries to Kafka have an end", "statement": "A record is given to Kafka at most 20 times, with at most 5.25 seconds of sleep in between, and is given up only if it is refused or the queue was full at all of these attempts.", "quantifier": "all records, and all answers of Kafka over time, for all publishers to Kafka", "why_tests_cant": "Tests can not wait for queues that stay full, nor try all sequences of answers.", "anchors": ["crates/collector/src/publishers/kafka_json.rs: send", "crates/collector/src/publishers/kafka_avro.rs: send", "crates/collector/src/publishers/kafka_yang.rs: send"]}
{"id": "C157", "title": "Values are published to Kafka as Avro once, in their order", "statement": "Of each message that an Avro publisher takes all values are encoded and given to Kafka in their order, each queued at most once, also if values before failed, all with the key of the message.", "quantifier": "all messages, converters, encoders, sequences of events and answers of Kafka", "why_tests_cant": "Failures of any subset of values at any time.", "anchors": ["crates/collector/src/publishers/kafka_avro.rs: send", "crates/collector/src/publishers/kafka_avro.rs: run"]}
{"id": "C158", "title": "Messages published to Kafka as Avro are accounted for", "statement": "The counters of an Avro publisher add up: messages received are counted, and as failed if their key or values can not be made; each value of the others is counted as sent, as an error of encoding or as an error of sending.", "quantifier": "all messages, converters, encoders, sequences of events and answers of Kafka", "why_tests_cant": "Every path of retries and errors has to count exactly once.", "anchors": ["crates/collector/src/publishers/kafka_avro.rs: send", "crates/collector/src/publishers/kafka_avro.rs: run"]}
{"id": "C159", "title": "Publishing as Avro reports errors only if there are some", "statement": "Publishing a message as Avro reports an error exactly if it could not be made into values or none of its values could be published.", "quantifier": "all messages, converters, encoders and answers of Kafka", "why_tests_cant": "Depends on how many values a message has and which of them fail.", "anchors": ["crates/collector/src/publishers/kafka_avro.rs: send"]}
{"id": "C160", "title": "Messages are published to Kafka with the identifiers of their schemas", "statement": "Each message published as YANG has in its headers the identifier of the schema of its content identifier, as given at the start or as answered by the schema registry for the library that the cache has for it, or that of the default schema if it has none or the cache has none or does not answer, and no headers if there is no default.", "quantifier": "all messages, converters, sequences of events and answers of Kafka, cache and registry", "why_tests_cant": "What is cached depends on all messages before and on what others answered for them.", "anchors": ["crates/collector/src/publishers/kafka_yang.rs: register_schema", "crates/collector/src/publishers/kafka_yang.rs: send", "crates/collector/src/publishers/kafka_yang.rs: run"]}
{"id": "C161", "title": "Schemas are registered once for a content identifier", "statement": "Once a YANG publisher has an identifier for the schema of a content identifier it neither asks the cache nor the registry for it again.", "quantifier": "all messages, sequences of events and answers", "why_tests_cant": "Depends on all messages before.", "anchors": ["crates/collector/src/publishers/kafka_yang.rs: register_schema"]}
{"id": "C162", "title": "Messages published to Kafka as YANG are accounted for", "statement": "The counters of a YANG publisher add up: each message received is counted as sent, as an error of decoding or as an error of sending.", "quantifier": "all messages, sequences of events and answers of Kafka, cache and registry", "why_tests_cant": "Every path of retries and errors has to count exactly once.", "anchors": ["crates/collector/src/publishers/kafka_yang.rs: send", "crates/collector/src/publishers/kafka_yang.rs: register_schema", "crates/collector/src/publishers/kafka_yang.rs: run"]}
{"id": "C163", "title": "Publishers to Kafka flush their queue before they end", "statement": "When a publisher to Kafka ends it flushes the queue of records that Kafka has not got yet.", "quantifier": "all sequences of events and ways to end", "why_tests_cant": "Ways to end are many and tests use one.", "anchors": ["crates/collector/src/publishers/kafka_json.rs: run", "crates/collector/src/publishers/kafka_avro.rs: run", "crates/collector/src/publishers/kafka_yang.rs: run"]}
{"id": "C164", "title": "Messages are posted to HTTP once, in their order", "statement": "The batches an HTTP publisher posts are, put together, what the messages are converted to, from the first on, in their order, each once, and each batch has at least the number of messages configured.", "quantifier": "all messages, converters, batch sizes, sequences of events and answers of servers", "why_tests_cant": "Depends on how messages fall into batches and when servers fail.", "anchors": ["crates/collector/src/publishers/http.rs: run", "crates/collector/src/publishers/http.rs: send"]}
{"id": "C165", "title": "All messages are posted to HTTP", "statement": "All messages that an HTTP publisher takes are posted, at the latest when it ends.", "quantifier": "all messages, converters, batch sizes, sequences of events and answers of servers", "why_tests_cant": "Depends on how messages fall into batches and when the publisher ends.", "anchors": ["crates/collector/src/publishers/http.rs: run"]}
{"id": "C166", "title": "Messages posted to HTTP are counted", "statement": "An HTTP publisher counts as sent the messages that servers took, and as failed those that they did not.", "quantifier": "all messages, converters, batch sizes, sequences of events and answers of servers", "why_tests_cant": "Depends on how messages fall into batches and on all answers.", "anchors": ["crates/collector/src/publishers/http.rs: send", "crates/collector/src/publishers/http.rs: run"]}
{"id": "C167", "title": "Subscribers to datagrams are sent everything that is decoded, once and in order", "statement": "A subscriber to a UDP-notif or flow actor is sent every packet that is decoded after it subscribed, once and in the order of datagrams, as long as it stays subscribed and one of its channels is open, and nothing from before.", "quantifier": "all sequences of datagrams, peers, commands, closed channels and outcomes of sends", "why_tests_cant": "Subscribers come and go at any time between datagrams of any peers.", "anchors": ["crates/udp-notif-service/src/actor.rs: handle_decoded_msg", "crates/flow-service/src/flow_actor.rs: handle_decoded_pkt", "crates/udp-notif-service/src/actor.rs: run", "crates/flow-service/src/flow_actor.rs: run"]}
{"id": "C168", "title": "Nothing is sent to subscribers that are gone", "statement": "Nothing is sent to a subscriber after it unsubscribed, nor after something was decoded while all its channels were closed, nor if it never heard that it is subscribed.", "quantifier": "all sequences of datagrams, peers, commands, closed channels and outcomes of sends", "why_tests_cant": "Subscribers can go at any time, and identifiers must not come back.", "anchors": ["crates/udp-notif-service/src/actor.rs: handle_decoded_msg", "crates/flow-service/src/flow_actor.rs: handle_decoded_pkt", "crates/udp-notif-service/src/actor.rs: handle_unsubscribe", "crates/flow-service/src/flow_actor.rs: handle_unsubscribe"]}
{"id": "C169", "title": "Datagrams are accounted for", "statement": "The counters of a UDP-notif or flow actor add up: every datagram is counted as received, and as decoded or as malformed, and every send to a subscriber is counted as sent or as dropped.", "quantifier": "all sequences of datagrams, peers, commands, closed channels and outcomes of sends", "why_tests_cant": "Every path has to count exactly once.", "anchors": ["crates/udp-notif-service/src/actor.rs: decode_pkt", "crates/flow-service/src/flow_actor.rs: decode_pkt", "crates/udp-notif-service/src/actor.rs: handle_decoded_msg", "crates/flow-service/src/flow_actor.rs: handle_decoded_pkt"]}
{"id": "C170", "title": "Peers do not influence what is decoded from other peers", "statement": "What subscribers of a UDP-notif or flow actor get from a peer depends on the datagrams of that peer alone, however the datagrams of peers are interleaved.", "quantifier": "all sequences of datagrams, peers, commands, closed channels and outcomes of sends", "why_tests_cant": "Interleavings of peers with their own templates and segments are unbounded.", "anchors": ["crates/udp-notif-service/src/actor.rs: decode_pkt", "crates/flow-service/src/flow_actor.rs: decode_pkt"]}
{"id": "C171", "title": "Nothing that peers send ends a collector of datagrams", "statement": "Whatever datagrams arrive from whatever peers, a UDP-notif or flow actor goes on until it is told to stop or its socket fails.", "quantifier": "all sequences of datagrams, peers, commands, closed channels and outcomes of sends", "why_tests_cant": "All datagrams in all states of all decoders.", "anchors": ["crates/udp-notif-service/src/actor.rs: decode_pkt", "crates/flow-service/src/flow_actor.rs: decode_pkt", "crates/udp-notif-service/src/actor.rs: run", "crates/flow-service/src/flow_actor.rs: run"]}
{"id": "C172", "title": "Packets from one address go to one shard", "statement": "A subscriber with several channels gets all packets from an IP address on one of them, whatever the ports.", "quantifier": "all sequences of datagrams, peers, commands, closed channels and outcomes of sends", "why_tests_cant": "Depends on the hash, the number of channels and all packets.", "anchors": ["crates/flow-service/src/flow_actor.rs: handle_decoded_pkt"]}
{"id": "C173", "title": "Only unused peers are purged as unused", "statement": "A peer is reported as purged because it is unused only if nothing was decoded from it for longer than the duration asked for.", "quantifier": "all sequences of datagrams, peers, commands, closed channels and outcomes of sends, and all times that do not go back", "why_tests_cant": "Depends on the times of all packets and purges before.", "anchors": ["crates/udp-notif-service/src/actor.rs: handle_purge_unused_peers", "crates/flow-service/src/flow_actor.rs: handle_purge_unused_peers"]}
{"id": "C174", "title": "Purged peers are forgotten", "statement": "A peer that is reported as purged is not listed any more, and its templates and segments are forgotten.", "quantifier": "all sequences of datagrams, peers, commands, closed channels and outcomes of sends", "why_tests_cant": "Depends on all that was received from the peer.", "anchors": ["crates/udp-notif-service/src/actor.rs: handle_purge_unused_peers", "crates/flow-service/src/flow_actor.rs: handle_purge_unused_peers", "crates/udp-notif-service/src/actor.rs: handle_purge_peer", "crates/flow-service/src/flow_actor.rs: handle_purge_peer"]}
{"id": "C175", "title": "Silent peers are purged", "statement": "A peer that sends nothing is reported as purged by the second of two purges that are further apart than the duration asked for, or before.", "quantifier": "all sequences of datagrams, peers, commands, closed channels and outcomes of sends", "why_tests_cant": "Depends on the times of all packets and purges before.", "anchors": ["crates/udp-notif-service/src/actor.rs: handle_purge_unused_peers", "crates/flow-service/src/flow_actor.rs: handle_purge_unused_peers"]}
{"id": "C176", "title": "Peers that were heard of are listed", "statement": "The list of peers of a UDP-notif or flow actor has exactly the peers of which a datagram arrived since they were last purged by their address, each once.", "quantifier": "all sequences of datagrams, peers, commands, closed channels and outcomes of sends", "why_tests_cant": "Depends on all datagrams and purges.", "anchors": ["crates/udp-notif-service/src/actor.rs: handle_get_peers", "crates/flow-service/src/flow_actor.rs: handle_get_peers"]}
{"id": "C177", "title": "Subscribing to a supervisor is undone by unsubscribing", "statement": "Subscribing to a supervisor of UDP-notif or flow actors gives one subscription for each actor that runs, and unsubscribing these leaves all other subscribers as they are; the answer tells which actors had the subscriptions.", "quantifier": "all sets of actors, running or ended, with all subscribers", "why_tests_cant": "All sets of actors with all histories.", "anchors": ["crates/udp-notif-service/src/supervisor.rs: cmd", "crates/flow-service/src/flow_supervisor.rs: cmd", "crates/udp-notif-service/src/supervisor.rs: subscribe_tx", "crates/flow-service/src/flow_supervisor.rs: subscribe_shards_tx", "crates/udp-notif-service/src/supervisor.rs: unsubscribe", "crates/flow-service/src/flow_supervisor.rs: unsubscribe"]}
{"id": "C178", "title": "A supervisor that can not bind sockets says so", "statement": "Starting a supervisor of UDP-notif or flow actors fails if none of its sockets can be bound, and otherwise runs one actor for each that is bound, numbered from zero.", "quantifier": "all lists of sockets that can or can not be bound", "why_tests_cant": "All combinations of sockets that fail.", "anchors": ["crates/udp-notif-service/src/supervisor.rs: new", "crates/flow-service/src/flow_supervisor.rs: new", "crates/udp-notif-service/src/supervisor.rs: join_actors"]}
{"id": "C179", "title": "Subscribers to BMP get all messages of a connection, once and in order", "statement": "A subscriber to a BMP actor that subscribed, with at least one channel, before a connection was accepted is offered every message that is received on the connection, once, in order, all on one of its channels and with the address of the peer, as long as it does not unsubscribe; only the message that is being sent may be missing.", "quantifier": "all runs of the actor: connections, messages of each, commands and updates interleaved in all ways, sends that end in any way, any hash", "why_tests_cant": "Connections are handled by tasks that run at the same time as the actor, with subscribers that come and go.", "anchors": ["crates/bmp-service/src/actor.rs: handle_connection", "crates/bmp-service/src/actor.rs: send_to_subscribers", "crates/bmp-service/src/actor.rs: handle_subscribe"]}
{"id": "C180", "title": "Nothing of new connections is sent to those that unsubscribed", "statement": "A connection that is accepted after a subscriber unsubscribed from a BMP actor sends nothing to it.", "quantifier": "all runs of the actor: connections, messages of each, commands and updates interleaved in all ways, sends that end in any way, any hash", "why_tests_cant": "Tasks hold copies of the table of subscribers, and identifiers must not come back.", "anchors": ["crates/bmp-service/src/actor.rs: handle_unsubscribe", "crates/bmp-service/src/actor.rs: handle_connection"]}
{"id": "C181", "title": "Subscribing to open connections of BMP takes effect", "statement": "Once a BMP actor has answered that a subscriber is subscribed the messages that are received afterwards are sent to it also from connections that are open, and once it has answered that it is unsubscribed they are not.", "quantifier": "all runs of the actor: connections, messages of each, commands and updates interleaved in all ways, sends that end in any way, any hash", "why_tests_cant": "Open connections learn of subscribers by updates that may be late or overwritten.", "anchors": ["crates/bmp-service/src/actor.rs: handle_connection", "crates/bmp-service/src/actor.rs: handle_subscribe", "crates/bmp-service/src/actor.rs: handle_unsubscribe"]}
{"id": "C182", "title": "Open connections of BMP are listed", "statement": "The answer to a query for the connected peers of a BMP actor lists exactly the peers with an open connection.", "quantifier": "all runs of the actor: connections, messages of each, commands and updates interleaved in all ways, sends that end in any way, any hash", "why_tests_cant": "Connections end, are replaced and come back at any time; notices of it are taken later.", "anchors": ["crates/bmp-service/src/actor.rs: handle_command", "crates/bmp-service/src/actor.rs: run", "crates/bmp-service/src/actor.rs: handle_connection"]}
{"id": "C183", "title": "Disconnecting ends a connection of BMP", "statement": "Nothing is received from or sent for a peer after a BMP actor answered that it is disconnected, and nothing of any peer after the actor was shut down.", "quantifier": "all runs of the actor: connections, messages of each, commands and updates interleaved in all ways, sends that end in any way, any hash", "why_tests_cant": "Tasks are aborted at any point, in the middle of a message too.", "anchors": ["crates/bmp-service/src/actor.rs: handle_disconnect_peer", "crates/bmp-service/src/actor.rs: handle_command"]}
{"id": "C184", "title": "Connections and messages of BMP are accounted for", "statement": "The counters of a BMP actor add up: messages received, messages sent and dropped, and connections accepted, which are those closed and those listed.", "quantifier": "all runs of the actor: connections, messages of each, commands and updates interleaved in all ways, sends that end in any way, any hash", "why_tests_cant": "Every path has to count exactly once, replaced connections too.", "anchors": ["crates/bmp-service/src/actor.rs: handle_connection", "crates/bmp-service/src/actor.rs: send_to_subscribers", "crates/bmp-service/src/actor.rs: run"]}
{"id": "C185", "title": "Connections of BMP do not influence each other", "statement": "What a BMP actor receives from a connection and sends for it depends on the commands, the connections that are accepted and what arrives on that connection, and not on what arrives on others.", "quantifier": "all runs of the actor: connections, messages of each, commands and updates interleaved in all ways, sends that end in any way, any hash, in which no peer comes back from the same address and port", "why_tests_cant": "Interleavings of connections are unbounded.", "anchors": ["crates/bmp-service/src/actor.rs: handle_connection", "crates/bmp-service/src/actor.rs: run"]}
{"id": "C186", "title": "Subscribers do not end connections of BMP", "statement": "A connection of BMP stays open until the peer ends it or sends something malformed, it is disconnected or replaced or the actor ends, whatever subscribers there are.", "quantifier": "all runs of the actor: connections, messages of each, commands and updates interleaved in all ways, sends that end in any way, any hash", "why_tests_cant": "All sets of subscribers, with any number of channels, that change at any time.", "anchors": ["crates/bmp-service/src/actor.rs: send_to_subscribers", "crates/bmp-service/src/actor.rs: handle_connection"]}
{"id": "C187", "title": "Signals of the BMP server are heard", "statement": "Whoever waits for a signal of the handle of a BMP server, that it listens, that it is to shut down or to shut down gracefully, goes on after the signal was given, whether it came before or after, and not before the signal was given.", "quantifier": "any number of those who wait and who give the signal, and all interleavings of their steps", "why_tests_cant": "The steps interleave on several threads.", "anchors": ["crates/bmp-service/src/handle.rs: notified", "crates/bmp-service/src/handle.rs: notify_waiters", "crates/bmp-service/src/handle.rs: listening", "crates/bmp-service/src/handle.rs: wait_shutdown", "crates/bmp-service/src/handle.rs: wait_graceful_shutdown"]}
{"id": "C188", "title": "The service of a BMP server is asked about all that arrives", "statement": "The service of a BMP server is called with every message of a connection, once and in order, with the end of the connection or the error of the decoder last, and not after it asked to close the connection or failed.", "quantifier": "all interleavings of the steps of callers of the handle, of serve and of the workers of any number of connections", "why_tests_cant": "Connections are handled by tasks that can be interrupted at any point.", "anchors": ["crates/bmp-service/src/server.rs: handle_connection", "crates/bmp-service/src/server.rs: serve"]}
{"id": "C189", "title": "The BMP server counts its connections", "statement": "The number of connections that the handle of a BMP server tells is that of the connections that are taken and that have not ended.", "quantifier": "all interleavings of the steps of callers of the handle, of serve and of the workers of any number of connections", "why_tests_cant": "Workers count at the same time.", "anchors": ["crates/bmp-service/src/handle.rs: watcher", "crates/bmp-service/src/handle.rs: drop", "crates/bmp-service/src/handle.rs: connection_count"]}
{"id": "C190", "title": "No connection is served when the BMP server has returned", "statement": "When serve of a BMP server has returned, all connections have ended or are told to end.", "quantifier": "all interleavings of the steps of callers of the handle, of serve and of the workers of any number of connections", "why_tests_cant": "Connections come and end while the server shuts down.", "anchors": ["crates/bmp-service/src/server.rs: serve", "crates/bmp-service/src/handle.rs: wait_connections_end", "crates/bmp-service/src/handle.rs: drop"]}
{"id": "C191", "title": "Shutting down ends the BMP server and its connections", "statement": "After shutdown was called on the handle of a BMP server, serve returns, and the service is called no more for its connections.", "quantifier": "all interleavings of the steps of callers of the handle, of serve and of the workers of any number of connections", "why_tests_cant": "The signal can come between any two steps of serve and of workers.", "anchors": ["crates/bmp-service/src/handle.rs: shutdown", "crates/bmp-service/src/handle.rs: notified", "crates/bmp-service/src/server.rs: serve"]}
{"id": "C192", "title": "Shutting down gracefully ends the BMP server", "statement": "After graceful_shutdown was called on the handle of a BMP server and all connections have ended, serve returns.", "quantifier": "all interleavings of the steps of callers of the handle, of serve and of the workers of any number of connections", "why_tests_cant": "The last connection can end between any two steps of serve.", "anchors": ["crates/bmp-service/src/handle.rs: graceful_shutdown", "crates/bmp-service/src/handle.rs: wait_connections_end", "crates/bmp-service/src/handle.rs: drop", "crates/bmp-service/src/server.rs: serve"]}
{"id": "C193", "title": "Packets of a capture come out once, in order, with the numbers of their frames", "statement": "Reading a capture yields the packets of TCP and UDP that its frames carry, each once, in the order of the capture, and the frame counter behind each is the number of its frame, counting frames that carry nothing too.", "quantifier": "all captures, as sequences of blocks of the two formats, of any length", "why_tests_cant": "Captures are unbounded sequences of blocks.", "anchors": ["crates/pcap-reader/src/lib.rs: next", "crates/pcap-reader/src/lib.rs: frame_counter"]}
{"id": "C194", "title": "TCP segments and UDP datagrams are read exactly", "statement": "A segment or datagram of IPv4 or IPv6 in an Ethernet or Linux cooked frame with up to four VLAN tags is read with its addresses, its ports and exactly its payload; with more tags the frame is skipped.", "quantifier": "all addresses, ports, header fields, options, payloads, tags and paddings", "why_tests_cant": "The values are unbounded combinations; unit tests have a few frames.", "anchors": ["crates/pcap-reader/src/lib.rs: strip_vlan_tags", "crates/pcap-reader/src/lib.rs: parse_ethernet", "crates/pcap-reader/src/lib.rs: parse_l3", "crates/pcap-reader/src/lib.rs: parse_ipv4", "crates/pcap-reader/src/lib.rs: parse_ipv6"]}
{"id": "C195", "title": "Padding of frames is not payload", "statement": "Octets that Ethernet adds behind a packet to reach its least length are not part of the payload that is read.", "quantifier": "all packets and paddings", "why_tests_cant": "The paddings and packets are unbounded.", "anchors": ["crates/pcap-reader/src/lib.rs: parse_ipv4", "crates/pcap-reader/src/lib.rs: parse_ipv6"]}
{"id": "C196", "title": "Reading a capture does not panic", "statement": "No capture makes reading it panic: frames that cannot be read are skipped and those behind them are read.", "quantifier": "all captures, as sequences of blocks of the two formats, of any length, and what the libraries answer for their octets", "why_tests_cant": "Any octets can be in a capture.", "anchors": ["crates/pcap-reader/src/lib.rs: next", "crates/pcap-reader/src/lib.rs: parse_ipv4", "crates/pcap-reader/src/lib.rs: parse_ipv6"]}
{"id": "C197", "title": "Frames are read with the link type of their interface", "statement": "A frame of a capture is read with the link type of the interface that the capture says it was captured on, in captures of several sections too.", "quantifier": "all captures, as sequences of blocks of the two formats, of any length", "why_tests_cant": "Captures have any number of sections and interfaces.", "anchors": ["crates/pcap-reader/src/lib.rs: next"]}
{"id": "C198", "title": "Decoding a capture ends", "statement": "A capture that is read to its end is decoded to its end: decoding neither panics nor loops forever, and the result is success.", "quantifier": "all captures and all payloads of their packets", "why_tests_cant": "Payloads are arbitrary octets, and the loop of the decoder goes on as long as messages come out.", "anchors": ["crates/pcap-decoder/src/lib.rs: load_pcap_and_process", "crates/pcap-decoder/src/handlers/mod.rs: decode_buffer"]}
{"id": "C199", "title": "Messages of a TCP flow do not depend on its segments", "statement": "The messages that come out of a capture for a TCP flow are those of its stream of octets, however it is cut into segments and whatever packets come in between.", "quantifier": "all cuts into segments, all interleavings with other packets, all streams of well-formed messages", "why_tests_cant": "The cuts and interleavings are unbounded.", "anchors": ["crates/pcap-decoder/src/handlers/mod.rs: decode_buffer", "crates/pcap-decoder/src/handlers/bgp.rs: decode", "crates/pcap-decoder/src/handlers/bmp.rs: decode"]}
{"id": "C200", "title": "Flows of a capture do not influence each other", "statement": "What comes out of a capture for one flow is what comes out of a capture with only the packets of that flow.", "quantifier": "all captures and all payloads of their packets, all flows", "why_tests_cant": "Flows interleave without bound.", "anchors": ["crates/pcap-decoder/src/handlers/bgp.rs: decode", "crates/pcap-decoder/src/handlers/bmp.rs: decode", "crates/pcap-decoder/src/handlers/flow.rs: decode", "crates/pcap-decoder/src/handlers/udp_notif.rs: decode"]}
{"id": "C201", "title": "Datagrams are decoded on their own", "statement": "What comes out for a datagram of a flow export or UDP-notif does not depend on octets of the datagrams before it of the same sender.", "quantifier": "all captures and all payloads of their packets", "why_tests_cant": "It is about sequences of datagrams that are cut short or malformed.", "anchors": ["crates/pcap-decoder/src/handlers/mod.rs: decode_buffer", "crates/pcap-decoder/src/handlers/flow.rs: decode", "crates/pcap-decoder/src/handlers/udp_notif.rs: decode"]}
{"id": "C202", "title": "The limit of frames and their numbers are right", "statement": "With a limit, what is decoded and written is what the frames up to that number carry, whatever is behind them; the number in a line is that of a frame that carries a packet of the protocol and is not above the limit.", "quantifier": "all captures and all payloads of their packets, all limits", "why_tests_cant": "Frames that are not of the protocol are counted too, in any pattern.", "anchors": ["crates/pcap-decoder/src/lib.rs: load_pcap_and_process", "crates/pcap-reader/src/lib.rs: frame_counter"]}
{"id": "C203", "title": "A malformed message in a capture costs only itself", "statement": "Behind a malformed message of a flow, the messages that come next in its stream are decoded.", "quantifier": "all streams with malformed messages, all cuts into segments", "why_tests_cant": "Malformed messages can be anywhere in a segment.", "anchors": ["crates/pcap-decoder/src/handlers/mod.rs: decode_buffer"]}
{"id": "C204", "title": "A payload that cannot be read does not stop the decoding of UDP-notif", "statement": "A UDP-notif packet whose payload is not of the encoding that its media type says, or with an option that is not known, does not keep the other packets of the capture from being written.", "quantifier": "all captures and all payloads of their packets, and what the libraries answer for payloads", "why_tests_cant": "Payloads are arbitrary octets.", "anchors": ["crates/pcap-decoder/src/handlers/udp_notif.rs: serialize", "crates/pcap-decoder/src/lib.rs: load_pcap_and_process"]}
{"id": "C205", "title": "Decoded BGP messages are written as such", "statement": "A BGP message of a capture that is decoded is written as itself with the addresses of its flow.", "quantifier": "all captures and all payloads of their packets", "why_tests_cant": "What is written depends on errors of earlier messages.", "anchors": ["crates/pcap-decoder/src/handlers/bgp.rs: serialize", "crates/pcap-decoder/src/handlers/bgp.rs: decode"]}
{"id": "C206", "title": "Text that is written into a NETCONF message is the text that is read", "statement": "A text that is written as the content of an element, whatever characters it has, is by the rules of XML the content of the element, and is read as itself.", "quantifier": "all texts", "why_tests_cant": "Texts are unbounded and the characters that XML reserves can be anywhere.", "anchors": ["crates/netconf-proto/src/xml_utils.rs: tag_string", "crates/netconf-proto/src/protocol.rs: xml_serialize"]}
{"id": "C207", "title": "Text of an element is read as XML says", "statement": "The text of an element is read as the rules of XML say, in whatever pieces, references, comments and CDATA sections it is written.", "quantifier": "all contents of an element without elements in it", "why_tests_cant": "A text can be written in unboundedly many ways.", "anchors": ["crates/netconf-proto/src/xml_utils.rs: tag_string"]}
{"id": "C208", "title": "Reading a NETCONF message ends", "statement": "Reading a message from any document ends with the message or an error: it neither loops forever nor panics.", "quantifier": "all documents, well formed or not, cut anywhere", "why_tests_cant": "Documents are unbounded, and come from the network.", "anchors": ["crates/netconf-proto/src/xml_utils.rs: tag_string", "crates/netconf-proto/src/xml_utils.rs: copy_buffer_till", "crates/netconf-proto/src/xml_utils.rs: close", "crates/netconf-proto/src/xml_utils.rs: collect_xml_sequence", "crates/netconf-proto/src/protocol.rs: xml_deserialize"]}
{"id": "C209", "title": "A request that is written is read back", "statement": "A request of any operation that is written as XML is read back as the same request.", "quantifier": "all requests: message-ids, operations with all their parameters, filters and content", "why_tests_cant": "Requests have unbounded content.", "anchors": ["crates/netconf-proto/src/protocol.rs: xml_serialize", "crates/netconf-proto/src/protocol.rs: xml_deserialize"]}
{"id": "C210", "title": "A reply that is written is read back", "statement": "A reply, with errors, data or neither, that is written as XML is read back as the same reply.", "quantifier": "all replies: any number of errors with all their details, any data", "why_tests_cant": "Replies have any number of errors and unbounded data.", "anchors": ["crates/netconf-proto/src/protocol.rs: xml_serialize", "crates/netconf-proto/src/protocol.rs: xml_deserialize"]}
{"id": "C211", "title": "A hello that is written is read back", "statement": "A hello with any capabilities and session is read back as the same hello.", "quantifier": "all lists of capabilities, all session numbers", "why_tests_cant": "Capabilities have unbounded parameters.", "anchors": ["crates/netconf-proto/src/protocol.rs: xml_serialize", "crates/netconf-proto/src/protocol.rs: xml_deserialize", "crates/netconf-proto/src/capabilities.rs: from_str", "crates/netconf-proto/src/capabilities.rs: fmt"]}
{"id": "C212", "title": "Configuration of a request arrives whole", "statement": "The configuration of an edit-config is read as it was sent, with all its elements.", "quantifier": "all well formed configurations", "why_tests_cant": "Configurations are unbounded trees with any names.", "anchors": ["crates/netconf-proto/src/xml_utils.rs: copy_buffer_till", "crates/netconf-proto/src/protocol.rs: xml_deserialize"]}
{"id": "C213", "title": "A reply without data is read as one", "statement": "A reply whose data is empty is read as a reply with empty data, however XML writes an empty element.", "quantifier": "all message-ids and both ways to write an empty element", "why_tests_cant": "The two ways are the same to XML, and which one comes is up to the device.", "anchors": ["crates/netconf-proto/src/xml_utils.rs: copy_buffer_till", "crates/netconf-proto/src/protocol.rs: xml_deserialize"]}
{"id": "C214", "title": "Content keeps the namespaces of its names", "statement": "The content of a message that is handed on as text has the expanded names that its elements have in the message.", "quantifier": "all contents, with all declarations of namespaces around them", "why_tests_cant": "Trees of elements and declarations are unbounded.", "anchors": ["crates/netconf-proto/src/xml_utils.rs: copy_buffer_till", "crates/netconf-proto/src/xml_utils.rs: copy_buffer_till_with_namespaces"]}
{"id": "C215", "title": "The text of a YANG schema is delivered exactly", "statement": "The text of a YANG schema that a reply carries is read exactly as it was sent.", "quantifier": "all texts", "why_tests_cant": "Schemas are long texts with any characters.", "anchors": ["crates/netconf-proto/src/protocol.rs: xml_deserialize"]}
{"id": "C216", "title": "A capability means the same when it is written again", "statement": "A capability that is read and written is read as the same capability.", "quantifier": "all texts of capabilities", "why_tests_cant": "The texts have any parameters in any order.", "anchors": ["crates/netconf-proto/src/capabilities.rs: from_str", "crates/netconf-proto/src/capabilities.rs: fmt"]}
{"id": "C217", "title": "White space around a capability makes no difference", "statement": "A capability in a hello is recognised with white space around it.", "quantifier": "all capabilities, all white space around them", "why_tests_cant": "Indentation is up to the device.", "anchors": ["crates/netconf-proto/src/capabilities.rs: from_str"]}
{"id": "C218", "title": "A hello with capabilities that are not known is accepted", "statement": "A hello is read whatever capabilities it lists, known or not.", "quantifier": "all lists of capabilities", "why_tests_cant": "Devices list hundreds of capabilities of any kind.", "anchors": ["crates/netconf-proto/src/capabilities.rs: from_str", "crates/netconf-proto/src/protocol.rs: xml_deserialize"]}
{"id": "C219", "title": "What is written is well formed", "statement": "Every message that is written is a well formed document of XML.", "quantifier": "all messages with well formed content", "why_tests_cant": "Messages have any texts and any number of errors.", "anchors": ["crates/netconf-proto/src/protocol.rs: xml_serialize", "crates/netconf-proto/src/xml_utils.rs: write_event"]}
{"id": "C220", "title": "Namespaces of one's own do not change messages", "statement": "With a writer that is given prefixes for namespaces, messages are written in the namespaces they belong to, and are read back.", "quantifier": "all lists of namespaces and prefixes, all messages", "why_tests_cant": "Prefixes can be any, that of the namespace of NETCONF too.", "anchors": ["crates/netconf-proto/src/xml_utils.rs: new_with_custom_namespaces", "crates/netconf-proto/src/xml_utils.rs: create_element", "crates/netconf-proto/src/protocol.rs: xml_deserialize"]}
{"id": "C221", "title": "YANG libraries are read back", "statement": "A YANG library that is written as XML, on its own or in a reply to a request, is read back as the same library.", "quantifier": "all YANG libraries: any module sets, modules, submodules, schemas and datastores", "why_tests_cant": "A library has any number of modules with any names, revisions, features and locations.", "anchors": ["crates/netconf-proto/src/yanglib.rs: YangLibrary::xml_serialize", "crates/netconf-proto/src/yanglib.rs: YangLibrary::xml_deserialize", "crates/netconf-proto/src/yanglib.rs: ModuleSet::xml_serialize", "crates/netconf-proto/src/yanglib.rs: Module::xml_deserialize"]}
{"id": "C222", "title": "The order of children of a YANG library does not matter", "statement": "The module sets, schemas, datastores and content-id of a YANG library are read in whatever order they come, and the same library comes out.", "quantifier": "all documents with such children in any order", "why_tests_cant": "Servers send them in any order they like.", "anchors": ["crates/netconf-proto/src/yanglib.rs: YangLibrary::xml_deserialize"]}
{"id": "C223", "title": "Modules are read whatever the order of their leaves", "statement": "What a module or a module set says is read in whatever order its leaves come, and leaves of other modules between them are passed over.", "quantifier": "all orders of leaves and all leaves of other modules", "why_tests_cant": "XML of YANG does not fix the order, and other modules augment the library.", "anchors": ["crates/netconf-proto/src/yanglib.rs: Module::xml_deserialize", "crates/netconf-proto/src/yanglib.rs: ModuleSet::xml_deserialize", "crates/netconf-proto/src/yanglib.rs: YangLibrary::xml_deserialize"]}
{"id": "C224", "title": "Datastores are told by namespace", "statement": "The name of a datastore in a YANG library is understood by the namespace that its prefix stands for, whatever the prefix is and wherever it is declared; an undeclared prefix is an error.", "quantifier": "all prefixes, declarations and names", "why_tests_cant": "Servers choose prefixes freely.", "anchors": ["crates/netconf-proto/src/yanglib.rs: Datastore::xml_deserialize", "crates/netconf-proto/src/yanglib.rs: DatastoreName"]}
{"id": "C225", "title": "Lookups in a YANG library find what was listed last", "statement": "A module, module set, schema or datastore that is looked up by name is the one of that name that was listed last; a module to import only is looked up by name and revision.", "quantifier": "all lists with any repetitions and all names", "why_tests_cant": "Libraries may list the same name any number of times.", "anchors": ["crates/netconf-proto/src/yanglib.rs: ModuleSet::new", "crates/netconf-proto/src/yanglib.rs: YangLibrary::new", "crates/netconf-proto/src/yanglib.rs: find_module"]}
{"id": "C226", "title": "An edit that does not say its default operation merges", "statement": "An `edit-config` request without default operation is read as one that merges, and parts that it leaves out stay left out.", "quantifier": "all `edit-config` requests with any of the optional parts left out", "why_tests_cant": "Any combination of parts may be left out.", "anchors": ["crates/netconf-proto/src/protocol.rs: parse_edit_config"]}
{"id": "C227", "title": "Requests of a session have different message identifiers", "statement": "Whatever calls are made on a NETCONF client, in whatever order, and whatever the server answers, no two requests that the client sends have the same message identifier, that to close the session not left out.", "quantifier": "all sequences of calls, each of which may depend on what came of the others, and all that a server may send", "why_tests_cant": "There are any number of calls and answers, failures among them.", "anchors": ["crates/netconf-proto/src/client.rs: rpc", "crates/netconf-proto/src/client.rs: close", "crates/netconf-proto/src/client.rs: next_message_id"]}
{"id": "C228", "title": "The answer of a call is that of its own request", "statement": "Asking for a schema or for the YANG library gives what the next message from the server has if that is a reply with the identifier of this very request, or without one; and an error if anything else comes. Closing looks at no identifier.", "quantifier": "all sessions, requests and messages", "why_tests_cant": "Any message can come in answer.", "anchors": ["crates/netconf-proto/src/client.rs: get_schema", "crates/netconf-proto/src/client.rs: get_yang_library", "crates/netconf-proto/src/client.rs: validate_message_id"]}
{"id": "C229", "title": "Errors of the server are reported", "statement": "If the reply of the server to a request has errors of severity error, the call that made the request fails.", "quantifier": "all replies", "why_tests_cant": "A reply may have any number of errors beside its data.", "anchors": ["crates/netconf-proto/src/client.rs: get_schema", "crates/netconf-proto/src/protocol.rs: RpcReplyContent::responses"]}
{"id": "C230", "title": "The YANG library is asked for once", "statement": "A client asks the server for its YANG library only once and then gives the one it has, as its documentation says.", "quantifier": "all numbers of calls in a session", "why_tests_cant": "There are any number of calls.", "anchors": ["crates/netconf-proto/src/client.rs: get_yang_library"]}
{"id": "C231", "title": "Calls go on after a stray reply", "statement": "If the server answers each request, then each call gives its answer; and a reply that belongs to no request, such as one that comes late, spoils at most one call.", "quantifier": "all numbers of calls and answers", "why_tests_cant": "What follows a stray reply is unbounded.", "anchors": ["crates/netconf-proto/src/client.rs: rpc_reply", "crates/netconf-proto/src/client.rs: validate_message_id"]}
{"id": "C232", "title": "References to filters are resolved", "statement": "A subscription that is fetched and refers to a filter by its name comes with the filter of that name in place of the reference.", "quantifier": "all subscriptions, filters and names", "why_tests_cant": "Any filters may be configured on the server.", "anchors": ["crates/netconf-proto/src/client.rs: get_yang_push_subscription_by_id"]}
{"id": "C233", "title": "What is fetched for a subscription is what it needs", "statement": "For a subscription are loaded, from the device, the modules that it names, or else, for each namespace of its filter, a module of that namespace which the YANG library says the datastore has, and the module of subscribed notifications with them; and fetching fails only if the datastore has no such module.", "quantifier": "all subscriptions and YANG libraries", "why_tests_cant": "Libraries have any number of sets, schemas and modules.", "anchors": ["crates/yang-push/src/cache/fetcher.rs: fetch_from_device_by_id", "crates/netconf-proto/src/yanglib.rs: find_module_by_datastore_and_ns"]}
{"id": "C234", "title": "Fetching is repeated as configured", "statement": "Fetching is tried until it succeeds, and at most once more often than it may be repeated, after which the last error is reported; before each attempt but the first there is one wait, of at least half and at most the whole of one second doubled with each further attempt, and at most of the longest wait configured.", "quantifier": "all configurations, outcomes of attempts and random numbers", "why_tests_cant": "Outcomes and random numbers are unbounded.", "anchors": ["crates/yang-push/src/cache/fetcher.rs: with_retry"]}
{"id": "C235", "title": "What is published of flows is of the schema that is published", "statement": "With a configuration that is accepted, what is published of a record has the fields of the Avro schema of that configuration, in the same order, each with a value of the type that the schema gives.", "quantifier": "all accepted configurations and all records", "why_tests_cant": "Configurations combine any selections, transformations and defaults, and records hold any elements.", "anchors": ["crates/collector/src/flow/config.rs: get_avro_schema", "crates/collector/src/flow/config.rs: get_avro_value_from_fields", "crates/collector/src/flow/config.rs: get_record_schema", "crates/collector/src/flow/mod.rs: RawValue"]}
{"id": "C236", "title": "Accepted configurations convert all records", "statement": "A configuration that is accepted when the collector starts converts every record that can be received: no record is an error or a panic.", "quantifier": "all accepted configurations and all records", "why_tests_cant": "Records come from the network, with any elements, known or not, and any values.", "anchors": ["crates/collector/src/flow/config.rs: validate", "crates/collector/src/flow/config.rs: apply", "crates/collector/src/flow/mod.rs: From<Field> for RawValue"]}
{"id": "C237", "title": "Fields are selected as configured", "statement": "A single selection is the occurrence of an element with the number configured; of a list of elements the first that the record has; of many elements all that it has, in the order of the configuration; and of segments of layer 2 the number, of 24 or 40 bits, if the encapsulation is that configured.", "quantifier": "all records and selections", "why_tests_cant": "Records have any number of fields and of occurrences of elements.", "anchors": ["crates/collector/src/flow/config.rs: FieldSelect", "crates/collector/src/flow/config.rs: Layer2SegmentId"]}
{"id": "C238", "title": "Numbers are published with their values", "statement": "A number that is published as it is has the value that it has in the record, and an element that the record does not have is null or the default.", "quantifier": "all records, configurations and numbers", "why_tests_cant": "Numbers have up to 64 bits.", "anchors": ["crates/collector/src/flow/mod.rs: into_avro_value", "crates/collector/src/flow/config.rs: avro_value"]}
{"id": "C239", "title": "Times as text keep their milliseconds", "statement": "A time that is configured to be published as milliseconds in text is published as the number of milliseconds since 1970.", "quantifier": "all times", "why_tests_cant": "There is one text for each time.", "anchors": ["crates/collector/src/flow/config.rs: TimestampMillisString"]}
{"id": "C240", "title": "Each data record is published, and fails, for itself", "statement": "Of a packet one record is published for each data record, in their order, from the fields of that record; and a record that cannot be converted does not keep others from being published.", "quantifier": "all packets", "why_tests_cant": "Packets have any number of sets and records.", "anchors": ["crates/collector/src/flow/config.rs: get_avro_values"]}
{"id": "C241", "title": "Maps keep all that is selected", "statement": "If many elements are published as a map, then each that the record has is in the map, under its new name or that of the element, and with what is configured to stand for its text.", "quantifier": "all records, selections and new names", "why_tests_cant": "There are any number of elements and names.", "anchors": ["crates/collector/src/flow/config.rs: StringMapAgg"]}
{"id": "C242", "title": "Labels are published with their places", "statement": "Labels of a stack are published in the order of the configuration, each with its place in the stack, for all entries from the top one on.", "quantifier": "all stacks of labels and selections", "why_tests_cant": "Labels have 20 bits, and any of the entries may be missing.", "anchors": ["crates/collector/src/flow/config.rs: MplsIndex"]}
{"id": "C243", "title": "AS paths are put together as RFC 6793 says", "statement": "The path that is published for an update is that of AS_PATH, with its last members replaced with those of AS4_PATH, unless the latter has more; a set counts as one. If AS_PATH has four octets, or AGGREGATOR has an AS number that is not AS_TRANS, AS4_PATH is not used.", "quantifier": "all AS paths", "why_tests_cant": "Paths have any number of segments of any number of AS numbers.", "anchors": ["crates/collector/src/bmp/pmacct_schema.rs: merge_as_path", "crates/collector/src/bmp/pmacct_schema.rs: fmt_as_path_prefix", "crates/collector/src/bmp/pmacct_schema.rs: count_as_path_asns"]}
{"id": "C244", "title": "AS paths can be read back from their text", "statement": "Two paths that are published with the same text have the same members in the same order, sets included.", "quantifier": "all AS paths", "why_tests_cant": "There are as many texts as paths.", "anchors": ["crates/collector/src/bmp/pmacct_schema.rs: fmt_as_path", "crates/collector/src/bmp/pmacct_schema.rs: fmt_as4_path"]}
{"id": "C245", "title": "Each route of an update is published once", "statement": "Of an update each route that is withdrawn or announced is published once and in order, as withdrawn or announced, with its family, prefix, path identifier, next hop, route distinguisher and labels.", "quantifier": "all updates", "why_tests_cant": "Updates have any number of routes of more than twenty families.", "anchors": ["crates/collector/src/bmp/pmacct_schema.rs: convert_route_monitoring"]}
{"id": "C246", "title": "The end of a RIB is published as such", "statement": "An update is published as the end of the RIB of a family if and only if it has no routes at all: it is empty, or it has one empty MP_UNREACH_NLRI, of that family, and no MP_REACH_NLRI.", "quantifier": "all updates", "why_tests_cant": "Updates have any attributes in any order.", "anchors": ["crates/collector/src/bmp/pmacct_schema.rs: convert_route_monitoring", "crates/bgp-pkt/src/update.rs: end_of_rib"]}
{"id": "C247", "title": "Routes are published with the attributes of their update", "statement": "All routes of an update are published with the origin, path, preference, metrics and communities of the update; of an attribute that occurs more than once the last one counts, and routes that are withdrawn have none.", "quantifier": "all updates", "why_tests_cant": "Attributes occur in any number and order.", "anchors": ["crates/collector/src/bmp/pmacct_schema.rs: convert_route_monitoring"]}
{"id": "C248", "title": "Each counter of a report is published", "statement": "Of a report of statistics one message is published for each counter, in order, with the type, the value and the family of the counter; values beyond the largest signed number of 64 bits are that number.", "quantifier": "all reports of statistics", "why_tests_cant": "Counters are of any type, known or not, with any values.", "anchors": ["crates/collector/src/bmp/pmacct_schema.rs: convert_statistics_report", "crates/collector/src/bmp/pmacct_schema.rs: counter_value_and_addr_type"]}
{"id": "C249", "title": "The table of a message is that of its peer", "statement": "The type of RIB that a message is published with, and its flags, are those that the type of the peer and the octet of flags say by RFC 7854, 8671 and 9069.", "quantifier": "all types of peers and octets of flags", "why_tests_cant": "There are hundreds of combinations.", "anchors": ["crates/collector/src/bmp/pmacct_schema.rs: rib_type_and_flags"]}
{"id": "C250", "title": "Only messages that pmacct has no record of are refused", "statement": "A message of BMP is refused only if it is of route mirroring or of an experiment.", "quantifier": "all messages of BMP", "why_tests_cant": "Messages of all types have headers with or without times.", "anchors": ["crates/collector/src/bmp/pmacct_schema.rs: try_from_bmp_request", "crates/collector/src/bmp/pmacct_schema.rs: peer_header_ts"]}
{"id": "C251", "title": "Times are published with six digits of microseconds", "statement": "The time of a message of a peer is published as its seconds, a dot, and six digits, and can be read back to the microsecond.", "quantifier": "all times that a header can have", "why_tests_cant": "There are 2^32 seconds of a million microseconds.", "anchors": ["crates/collector/src/bmp/pmacct_schema.rs: fmt_ts"]}
{"id": "C252", "title": "Route distinguishers can be told apart", "statement": "Peers and routes that are published with the same route distinguisher have the same, and it is said whether it is of the peer or of the route.", "quantifier": "all route distinguishers", "why_tests_cant": "There are 2^64 route distinguishers of four types.", "anchors": ["crates/collector/src/bmp/pmacct_schema.rs: rd_and_origin"]}
{"id": "C253", "title": "Communities can be read back from their text", "statement": "Two lists of communities, of large communities or of extended communities that are published with the same text are the same; communities are published as AS number and value.", "quantifier": "all lists of communities", "why_tests_cant": "There are any number of communities of 32, 64 and 96 bits.", "anchors": ["crates/collector/src/bmp/pmacct_schema.rs: fmt_comms", "crates/collector/src/bmp/pmacct_schema.rs: fmt_ecomms", "crates/collector/src/bmp/pmacct_schema.rs: fmt_lcomms", "crates/bgp-pkt/src/community.rs: Display"]}
{"id": "C254", "title": "No information element is lost", "statement": "All information elements of initiation, peer up and termination messages are published, strings in their order.", "quantifier": "all lists of information elements", "why_tests_cant": "Elements occur in any number and order.", "anchors": ["crates/collector/src/bmp/pmacct_schema.rs: convert_initiation", "crates/collector/src/bmp/pmacct_schema.rs: convert_peer_up", "crates/collector/src/bmp/pmacct_schema.rs: convert_termination"]}
{"id": "C255", "title": "Messages are published with the record of their type and numbered", "statement": "What is published of a message has the record of the type of that message, at the place of that record in the schema; it has the router, the writer and the time of arrival; and messages are numbered in sequence.", "quantifier": "all messages of BMP", "why_tests_cant": "Messages of all types are converted to any number of records.", "anchors": ["crates/collector/src/bmp/pmacct_schema.rs: get_schema", "crates/collector/src/bmp/pmacct_schema.rs: get_avro_value", "crates/collector/src/bmp/pmacct_schema.rs: set_seq"]}
{"id": "C256", "title": "Peers that come up or go down are published as they do", "statement": "Of a peer that comes up the ports, the local address and the times are published, and of one that goes down the code of the reason and, if there is one, the event of the state machine; both with the address, AS number and identifier of the peer.", "quantifier": "all messages of peers that come up or go down", "why_tests_cant": "Messages have optional ports, addresses and times and several kinds of reasons.", "anchors": ["crates/collector/src/bmp/pmacct_schema.rs: convert_peer_up", "crates/collector/src/bmp/pmacct_schema.rs: convert_peer_down"]}
{"id": "C257", "title": "Connections go to the peer of their address", "statement": "A connection from the address of a peer that is registered is given to that peer and to no other, unless its task has ended; each peer gets the connections that are given to it once and in the order in which they are accepted.", "quantifier": "all sequences of connections on any number of sockets, of reports of peers and of tasks that end", "why_tests_cant": "Connections and reports come in any order and number.", "anchors": ["crates/bgp-speaker/src/listener.rs: accept_peer_connection", "crates/bgp-speaker/src/listener.rs: run"]}
{"id": "C258", "title": "Sockets are listened on independently", "statement": "A connection that comes in on one socket is accepted whether or not others come in on other sockets.", "quantifier": "all sequences of connections on any number of sockets", "why_tests_cant": "What is accepted depends on what came in before on all sockets.", "anchors": ["crates/bgp-speaker/src/listener.rs: run"]}
{"id": "C259", "title": "Unknown addresses get nothing without a policy", "statement": "If dynamic peers are not allowed, then no peer is made, and a connection from an address that no peer is registered for is given to none.", "quantifier": "all sequences of connections", "why_tests_cant": "Connections come in any order and number.", "anchors": ["crates/bgp-speaker/src/listener.rs: accept_peer_connection", "crates/bgp-speaker/src/supervisor.rs: dynamic_peer"]}
{"id": "C260", "title": "A dynamic peer can try again", "statement": "Of the first connection from an address that is not known a peer is made, started and given the connection; from OpenConfirm on it gets the later ones; and if it fails before, a later connection from that address gets a peer again.", "quantifier": "all sequences of connections and reports", "why_tests_cant": "What becomes of a connection depends on all of the earlier ones of its address.", "anchors": ["crates/bgp-speaker/src/listener.rs: accept_peer_connection", "crates/bgp-speaker/src/supervisor.rs: dynamic_peer", "crates/bgp-speaker/src/supervisor.rs: create_peer"]}
{"id": "C261", "title": "Peers do not hold each other up", "statement": "A connection of a peer that is registered is accepted while a dynamic peer is still opening its session.", "quantifier": "all sequences of connections and reports", "why_tests_cant": "It depends on what one peer does while others connect.", "anchors": ["crates/bgp-speaker/src/listener.rs: accept_peer_connection"]}
{"id": "C262", "title": "There is one peer per key, and those removed are stopped", "statement": "A peer can be made if and only if there is none with its key; one that is made is never replaced while the listener runs; and one that is removed is stopped in order.", "quantifier": "all sequences of peers that are made and removed", "why_tests_cant": "Peers are made by callers and by connections, in any order.", "anchors": ["crates/bgp-speaker/src/supervisor.rs: create_peer", "crates/bgp-speaker/src/supervisor.rs: remove_peer", "crates/bgp-speaker/src/peer_controller.rs: shutdown", "crates/bgp-speaker/src/peer_controller.rs: drop"]}
{"id": "C263", "title": "Notifications are read back", "statement": "A notification, in a wrapper or in an old one, whose fields fit their types, is written to JSON, and what is written is read as the same notification.", "quantifier": "all notifications, subscriptions, triggers, filters and fields that augment them", "why_tests_cant": "Fields can be there or not in any combination, next to any members of other modules.", "anchors": ["crates/udp-notif-pkt/src/notification.rs: NotificationEnvelope", "crates/udp-notif-pkt/src/notification.rs: NotificationLegacy", "crates/udp-notif-pkt/src/notification.rs: NotificationVariant", "crates/udp-notif-pkt/src/notification.rs: SubscriptionStartedModified", "crates/udp-notif-pkt/src/decoded.rs: UdpNotifPayload"]}
{"id": "C264", "title": "Notifications that are read are stable", "statement": "What is read of a document can be written, and is read again as the same notification.", "quantifier": "all documents", "why_tests_cant": "Documents are any trees, with members that are known or not, in any order and number.", "anchors": ["crates/udp-notif-pkt/src/notification.rs: NotificationEnvelope", "crates/udp-notif-pkt/src/notification.rs: NotificationLegacy", "crates/udp-notif-pkt/src/decoded.rs: UdpNotifPayload"]}
{"id": "C265", "title": "Nothing of a notification is lost", "statement": "Members of a notification that are not known are kept with their values, at every level.", "quantifier": "all documents and all names", "why_tests_cant": "Other modules can augment notifications with any members.", "anchors": ["crates/udp-notif-pkt/src/notification.rs: NotificationEnvelope", "crates/udp-notif-pkt/src/notification.rs: NotificationLegacy", "crates/udp-notif-pkt/src/notification.rs: SubscriptionStartedModified", "crates/udp-notif-pkt/src/notification.rs: SubscriptionTerminated", "crates/udp-notif-pkt/src/notification.rs: YangPushUpdate"]}
{"id": "C266", "title": "A notification that is carried is read or refused", "statement": "If a document carries a notification, then it is read with it, as the kind it is named and of the subscription it numbers, or it is refused.", "quantifier": "all documents", "why_tests_cant": "A document can be wrong in any place.", "anchors": ["crates/udp-notif-pkt/src/notification.rs: NotificationEnvelope", "crates/udp-notif-pkt/src/notification.rs: NotificationLegacy", "crates/udp-notif-pkt/src/notification.rs: NotificationVariant"]}
{"id": "C267", "title": "The order of members does not matter", "statement": "Documents with the same members in another order are read as the same notification.", "quantifier": "all documents with each name once, and all orders", "why_tests_cant": "There are too many orders to be tried.", "anchors": ["crates/udp-notif-pkt/src/notification.rs: NotificationEnvelope", "crates/udp-notif-pkt/src/notification.rs: NotificationLegacy"]}
{"id": "C268", "title": "Names of both drafts are read alike", "statement": "A document that names the contents of a wrapper, or the name and the version of a module, as one draft or as the other is read the same; one that has both names is refused.", "quantifier": "all documents", "why_tests_cant": "The other members are any.", "anchors": ["crates/udp-notif-pkt/src/notification.rs: NotificationEnvelope", "crates/netconf-proto/src/yang_push/subscription.rs: YangPushModuleVersion"]}
{"id": "C269", "title": "Subscriptions that are fetched are told as they are", "statement": "A subscription that is fetched by NETCONF is converted to a description with its number, its target and its terms, or is refused; different targets have different descriptions.", "quantifier": "all subscriptions", "why_tests_cant": "Subscriptions have any filters and terms.", "anchors": ["crates/udp-notif-pkt/src/notification.rs: TryFrom<Subscription> for SubscriptionStartedModified", "crates/udp-notif-pkt/src/notification.rs: TryFrom<Target> for Target", "crates/netconf-proto/src/yang_push/subscription.rs: StreamTarget"]}
{"id": "C270", "title": "Targets are what documents say", "statement": "The stream, the datastore and the filters of a subscription are those of the document by their names of RFC 8639 and RFC 8641, and a subscription counts as of a datastore only exactly if it has members of a datastore and none of a stream.", "quantifier": "all documents", "why_tests_cant": "Members can be there or not in any combination, next to any others.", "anchors": ["crates/udp-notif-pkt/src/notification.rs: Target", "crates/udp-notif-pkt/src/notification.rs: is_datastore_only"]}
{"id": "C271", "title": "Encodings do not matter", "statement": "A document is decoded to the same notification from JSON and from CBOR; payloads of other media types are refused.", "quantifier": "all documents and all payloads", "why_tests_cant": "Documents are any trees.", "anchors": ["crates/udp-notif-pkt/src/decoded.rs: TryFrom<&UdpNotifPacket> for UdpNotifPacketDecoded"]}
{"id": "C272", "title": "Subscriptions are read back from XML", "statement": "A subscription that fits its types is written as XML, and what is written is read as the same subscription.", "quantifier": "all subscriptions, and all bindings of namespaces around them", "why_tests_cant": "Parts can be there or not in any combination, with any texts, numbers, times and paths.", "anchors": ["crates/netconf-proto/src/yang_push/subscription.rs: Subscription", "crates/netconf-proto/src/yang_push/subscription.rs: UpdateTrigger", "crates/netconf-proto/src/yang_push/filters.rs: DatastoreXPathFilter", "crates/netconf-proto/src/xml_utils.rs: XmlWriter"]}
{"id": "C273", "title": "Children of a subscription that are not known do not matter", "statement": "Elements of other modules, with anything in them, can be anywhere between the children of a subscription without any change of what is read.", "quantifier": "all subscriptions, and all elements at all places", "why_tests_cant": "Other modules augment subscriptions with any elements.", "anchors": ["crates/netconf-proto/src/yang_push/subscription.rs: Subscription"]}
{"id": "C274", "title": "Terms of updates are read in any order and next to any others", "statement": "The terms of periodic updates and of updates on change are read in any order, next to any elements of other modules.", "quantifier": "all sequences of terms and other elements", "why_tests_cant": "There are too many orders and elements to be tried.", "anchors": ["crates/netconf-proto/src/yang_push/subscription.rs: UpdateTrigger"]}
{"id": "C275", "title": "Versions of modules are read with all their parts", "statement": "The name, the revision and the version of a module are read, in any order and next to any elements of other modules.", "quantifier": "all names, revisions, versions and other elements", "why_tests_cant": "There are too many texts and elements to be tried.", "anchors": ["crates/netconf-proto/src/yang_push/subscription.rs: YangPushModuleVersion"]}
{"id": "C276", "title": "Transports and encodings are known by module and name", "statement": "A transport or an encoding is read as one that is known only if its identity is the one of this name of its module, whatever prefix the module has.", "quantifier": "all prefixes, namespaces and names", "why_tests_cant": "There are too many namespaces to be tried.", "anchors": ["crates/netconf-proto/src/yang_push/identities.rs: Transport", "crates/netconf-proto/src/yang_push/identities.rs: Encoding", "crates/netconf-proto/src/xml_utils.rs: resolve_identity_ref"]}
{"id": "C277", "title": "Filters with names are read in either order", "statement": "A filter of a datastore or of a stream is read with its name, whichever of both comes first.", "quantifier": "all names and all paths without prefixes", "why_tests_cant": "There are too many texts to be tried.", "anchors": ["crates/netconf-proto/src/yang_push/filters.rs: SelectionFilter", "crates/netconf-proto/src/yang_push/filters.rs: StreamFilter"]}
{"id": "C278", "title": "The order of the children of a subscription does not matter", "statement": "The children of a subscription can be in any order, with elements of other modules anywhere between them, if only elements of the same list or choice keep their order.", "quantifier": "all subscriptions, all orders, and all elements at all places", "why_tests_cant": "There are too many orders to be tried.", "anchors": ["crates/netconf-proto/src/yang_push/subscription.rs: Subscription"]}
{"id": "C279", "title": "Targets are exactly one", "statement": "A document of a subscription is read only if it has a number and exactly one target, a stream or a datastore, with a filter of its own kind.", "quantifier": "all documents with a number, a stream, a datastore and filters", "why_tests_cant": "There are too many texts and combinations to be tried.", "anchors": ["crates/netconf-proto/src/yang_push/subscription.rs: Subscription", "crates/netconf-proto/src/yang_push/subscription.rs: Target"]}
{"id": "C280", "title": "Prefixes of paths are kept with their namespaces", "statement": "The prefixes that the path of a filter uses, outside of literals and axes, are kept with the namespaces they are declared for, and no others; the path is written so that they are read back.", "quantifier": "all paths of steps, axes, comparisons and positions, and all declarations", "why_tests_cant": "Paths have any length, with any names and literals.", "anchors": ["crates/netconf-proto/src/xml_utils.rs: find_xpath_prefixes", "crates/netconf-proto/src/xml_utils.rs: read_xpath_with_namespaces", "crates/netconf-proto/src/yang_push/filters.rs: DatastoreXPathFilter"]}
{"id": "C281", "title": "Filters by subtree are kept with their namespaces", "statement": "The content of a filter by subtree is kept as it is, with each prefix that it uses, once, and the namespace that the prefix has there; what is kept is written so that the same filter is read back.", "quantifier": "all contents, and all declarations around them", "why_tests_cant": "Contents are of any depth and size, with any names and attributes.", "anchors": ["crates/netconf-proto/src/xml_utils.rs: copy_buffer_till_with_namespaces", "crates/netconf-proto/src/yang_push/filters.rs: DatastoreSubtreeFilter", "crates/netconf-proto/src/yang_push/filters.rs: StreamSubtreeFilter"]}
{"id": "C282", "title": "Sets of filters are read by name", "statement": "A document of filters is read as the filters in it by their names, in whatever order they are and with other elements anywhere between; of filters with the same name the last counts. A set that is written is read back as the same set.", "quantifier": "all documents of filters and other elements, and all sets", "why_tests_cant": "Sets are of any size, with any names, paths and subtrees.", "anchors": ["crates/netconf-proto/src/yang_push/filters.rs: Filters", "crates/netconf-proto/src/yang_push/filters.rs: SelectionFilter", "crates/netconf-proto/src/yang_push/filters.rs: StreamFilter"]}
{"id": "C283", "title": "A subscription is got by its number", "statement": "The subscription that the client gets for a number is the one of that number among those that the server answers with, with all its parts. A reference to a filter of a datastore is replaced with the filter that the server has under that name; without one the reference stays. If the server has no subscription of the number, then none is got.", "quantifier": "all subscriptions, numbers, filters of the server and further elements in its answers", "why_tests_cant": "Answers have any number of subscriptions and filters of any form, and their order is up to the server.", "anchors": ["crates/netconf-proto/src/client.rs: NetConfSshClient::get_yang_push_subscription_by_id", "crates/netconf-proto/src/client.rs: NetConfSshClient::get_yang_push_filters"]}
{"id": "C284", "title": "Texts of flow records are published as configured", "statement": "The text of an element is published as it is, without the zeros at its end, or under the name that is configured for it and otherwise as it is. An array of many elements has the texts of those that the record has, in the order in which they are configured.", "quantifier": "all configurations, records, texts and lists of names", "why_tests_cant": "Texts, numbers of zeros and lists of names are unbounded.", "anchors": ["crates/collector/src/flow/config.rs: FieldTransformFunction::apply", "crates/collector/src/flow/config.rs: FieldConfig::avro_value"]}
{"id": "C285", "title": "Enumerations of registries keep every number", "statement": "A number that is converted into the enumeration that is generated for a registry, and back, is the same number, also if the registry has no entry for it. The number of an entry becomes the variant of that entry. An octet of a forwarding status becomes the variant of the entry for its first two bits, with the reason for all of it.", "quantifier": "all registries with entries of different names, with and without reasons, and all numbers", "why_tests_cant": "Registries are published by others and grow; any number may be received.", "anchors": ["crates/ipfix-code-generator/src/generator_sub_registries.rs: generate_from_impl_for_rust_type", "crates/ipfix-code-generator/src/generator_sub_registries.rs: generate_from_impl_for_enum_type"]}
{"id": "C286", "title": "Numbers of registries are read in every form", "statement": "The number of an entry of a registry is read if it is written in decimal digits, in hexadecimal digits behind 0x, in binary digits behind 0b, or in binary digits before b, with any number of zeros in front, and it is the number that the digits stand for.", "quantifier": "all octets, and all texts of digits that stand for them", "why_tests_cant": "Digits can be of either case, and zeros in front of any number.", "anchors": ["crates/ipfix-code-generator/src/xml_parsers/sub_registries.rs: parse_val_name_desc_u8_registry"]}
{"id": "C287", "title": "Names of registries become names of variants", "statement": "The name of a variant is made of the letters and digits of the name in the registry before its first colon, in their order, whatever the lines and spaces between them; a digit in front is written as a word. The name begins with a letter and has letters and digits only, and entries of different names have variants of different names.", "quantifier": "all names of printable ASCII characters and white space", "why_tests_cant": "Names of registries are free text, of any length and with any punctuation.", "anchors": ["crates/ipfix-code-generator/src/xml_parsers/xml_common.rs: xml_string_to_enum_type", "crates/ipfix-code-generator/src/xml_parsers/xml_common.rs: replace_first_numeric_char"]}
{"id": "C288", "title": "Records of registries become entries", "statement": "Every record of a registry with a number below 255 and a name or a description is an entry with that number, in the order of the records, whatever is between them; names that are reserved or private are told apart by the number. A record without a name is named by its description if that is short, and by its number otherwise. Records that are unassigned, for experimentation, or without a number of an octet are passed over.", "quantifier": "all registries, records, names, descriptions and other elements between them", "why_tests_cant": "Registries have any number of records, of any texts.", "anchors": ["crates/ipfix-code-generator/src/xml_parsers/sub_registries.rs: parse_val_name_desc_u8_registry", "crates/ipfix-code-generator/src/xml_parsers/xml_common.rs: get_string_child"]}
{"id": "C289", "title": "Descriptions of elements keep their paragraphs", "statement": "The description of an element has the texts of its paragraphs and its artwork in their order, each on lines of its own, artwork between marks.", "quantifier": "all descriptions of any paragraphs and artwork, in any order, with any white space between them", "why_tests_cant": "Descriptions have any number of paragraphs of any text.", "anchors": ["crates/ipfix-code-generator/src/xml_parsers/ipfix.rs: parse_description_string"]}
{"id": "C290", "title": "Records of registries become elements", "statement": "Every record with a name, a type, a number, a status, a description, a revision and a date is an element with these, wherever they are in the record, in the order of the records, and with what else there is of group, semantics, applicability, units and range. samplerId and forwardingStatus are unsigned32 whatever the registry has. Records that lack one of these, that have no number of 16 bits, or that are reserved or unassigned are passed over.", "quantifier": "all registries, records and texts, and any order of the parts of a record", "why_tests_cant": "Registries have any number of records, of any texts, and grow.", "anchors": ["crates/ipfix-code-generator/src/xml_parsers/ipfix.rs: parse_information_elements"]}
{"id": "C291", "title": "Elements get the registries of their values", "statement": "The values of an element are those of the registry from outside for its number if there is one, otherwise those of the last registry in the document whose title has its number behind Value, and none if there is none. For forwarding statuses the reasons of an entry are those of the registry below with its two bits in its id.", "quantifier": "all documents, titles, numbers and registries from outside", "why_tests_cant": "Documents have any number of registries, in any order, with any titles.", "anchors": ["crates/ipfix-code-generator/src/xml_parsers/ipfix.rs: parse_ie_subregistries", "crates/ipfix-code-generator/src/xml_parsers/ipfix.rs: parse_information_elements", "crates/ipfix-code-generator/src/xml_parsers/sub_registries.rs: parse_reason_code_nested_u8_registry_2bit"]}
{"id": "C292", "title": "Operations from Kafka reach every enrichment actor", "statement": "Every actor for enrichment that takes an operation within some ten seconds gets all operations of all messages that can be read, each once and in their order, whatever other actors do, and whatever errors, reconnections and messages that cannot be read come between. An actor that does not misses those operations only. The consumer ends with the first command, or if the topic does not exist, and not otherwise.", "quantifier": "all messages, errors, reconnections and commands, all numbers of actors, and all ways in which their channels answer", "why_tests_cant": "How long channels are full, and which errors come between messages, cannot be enumerated.", "anchors": ["crates/collector/src/inputs/kafka/actor.rs: KafkaConsumerActor::run"]}
{"id": "C293", "title": "The consumer of Kafka tries for a bounded time and counts what is lost", "statement": "An operation is tried with an actor twenty-one times at most, with waits of less than ten and a half seconds together, and it is sent if one of the attempts succeeds. For every actor an operation is either sent or counted as failed. A command to stop is obeyed in bounded time.", "quantifier": "all operations, channels and executions", "why_tests_cant": "Attempts depend on the state of other actors, and outages have any length.", "anchors": ["crates/collector/src/inputs/kafka/actor.rs: KafkaConsumerActor::run", "crates/collector/src/inputs/kafka/actor.rs: KafkaConsumerActorHandle::shutdown"]}
{"id": "C294", "title": "Replies of all BMP actors reach the caller", "statement": "A call to the supervisor of BMP actors that asks all actors returns the reply of every actor that runs, each once, in whatever order actors and caller are scheduled, and it returns: subscriptions, removals, disconnections, local addresses and connected peers.", "quantifier": "all numbers of actors, sizes of buffers and schedules of actors and caller", "why_tests_cant": "Whether a reply finds room depends on the order in which actors and caller are scheduled.", "anchors": ["crates/bmp-service/src/supervisor.rs: BmpSupervisorHandle::subscribe_tx", "crates/bmp-service/src/supervisor.rs: BmpSupervisorHandle::local_addresses", "crates/bmp-service/src/supervisor.rs: BmpSupervisorHandle::get_connected_peers", "crates/bmp-service/src/actor.rs: BmpActor::handle_command"]}
{"id": "C295", "title": "Commands to the supervisor of BMP actors act on all actors", "statement": "The supervisor starts if at least one listener does. A subscription is made at every actor that runs, and is none that exists. Unsubscribing removes the given subscriptions and no others, and reports the actors that removed one. Disconnecting a peer removes it from every actor, leaves others, and tells which actors had it. After a shutdown no actor runs and no peer is connected.", "quantifier": "all sets of listeners, actors, subscriptions and peers", "why_tests_cant": "States of actors and lists of subscriptions are unbounded.", "anchors": ["crates/bmp-service/src/supervisor.rs: BmpSupervisorHandle::new", "crates/bmp-service/src/supervisor.rs: BmpSupervisor::cmd", "crates/bmp-service/src/actor.rs: BmpActor::handle_subscribe", "crates/bmp-service/src/actor.rs: BmpActor::handle_unsubscribe", "crates/bmp-service/src/actor.rs: BmpActor::handle_disconnect_peer"]}
{"id": "C296", "title": "Each configured endpoint of the collector publishes", "statement": "A collection starts if and only if each endpoint of each group is of a kind that the collection supports, with a valid configuration, and its publisher and its inputs can be made. Then each endpoint has a publisher behind every shard of its group.", "quantifier": "all configurations of groups, shards and endpoints", "why_tests_cant": "Configurations cannot be enumerated, and collections need brokers and sockets to be run.", "anchors": ["crates/collector/src/lib.rs: init_flow_collection", "crates/collector/src/lib.rs: init_bmp_collection", "crates/collector/src/lib.rs: init_udp_notif_collection"]}
{"id": "C297", "title": "Each endpoint of a group gets all messages", "statement": "Each endpoint of a group of publishers gets each message that the group is subscribed to, in order, whatever other endpoints the group has.", "quantifier": "all configurations, messages and schedules of the actors that read", "why_tests_cant": "Which actor takes a message from a channel depends on the schedule.", "anchors": ["crates/collector/src/lib.rs: init_flow_collection", "crates/collector/src/lib.rs: init_bmp_collection", "crates/collector/src/lib.rs: init_udp_notif_collection"]}
{"id": "C298", "title": "Enrichment stays within a group and reaches all its actors", "statement": "Operations for enrichment from option records, files and Kafka reach every enrichment actor of the group that they are configured for, and none of another group.", "quantifier": "all configurations of groups, shards, endpoints and inputs", "why_tests_cant": "Configurations cannot be enumerated.", "anchors": ["crates/collector/src/lib.rs: init_flow_collection", "crates/collector/src/lib.rs: init_udp_notif_collection"]}
{"id": "C299", "title": "A collection goes on while its parts run", "statement": "A collection that has started goes on while its supervisor and its actors do.", "quantifier": "all configurations", "why_tests_cant": "Which tasks are waited for depends on the configuration.", "anchors": ["crates/collector/src/lib.rs: init_flow_collection", "crates/collector/src/lib.rs: init_bmp_collection", "crates/collector/src/lib.rs: init_udp_notif_collection"]}
{"id": "C300", "title": "JSON records tell peer, writer and payload", "statement": "A record that a JSON publisher makes of a message has the address of the peer as its key, tells the writer that is configured, and keeps all members of the message. Of a raw notification it has the payload as it is read for its media type; notifications whose media type is not JSON, XML or CBOR, or whose payload cannot be read, and no others, are refused.", "quantifier": "all messages, payloads, media types and writers", "why_tests_cant": "Payloads and media types are unbounded.", "anchors": ["crates/collector/src/lib.rs: serialize_udp_notif", "crates/collector/src/lib.rs: serialize_flow_req", "crates/collector/src/lib.rs: serialize_bmp", "crates/collector/src/lib.rs: serialize_flow", "crates/collector/src/lib.rs: serialize_telemetry_json"]}
{"id": "C301", "title": "The collector exits as its collections do and stops them", "statement": "The collector goes on while one of its collections has not ended. It exits with success when all have ended or when it is interrupted, and with a failure at the first failure of a collection, and not otherwise. When it exits, the actors of all collections have been told to stop.", "quantifier": "all numbers of collections and all orders in which they end, fail or are interrupted", "why_tests_cant": "Orders of failures and signals cannot be enumerated.", "anchors": ["crates/collector/src/main.rs: main", "crates/collector/src/lib.rs: init_flow_collection", "crates/collector/src/lib.rs: init_bmp_collection", "crates/collector/src/lib.rs: init_udp_notif_collection"]}
{"id": "C302", "title": "A collection that ends tells its actors to stop", "statement": "When the supervisor of a collection or one of its tasks has ended, all actors that the collection has made are told to stop: those that validate, enrich, renormalize, aggregate and publish, those that give operations, and the cache of schemas.", "quantifier": "all configurations, and both causes", "why_tests_cant": "Configurations cannot be enumerated, and collections need brokers and sockets to be run.", "anchors": ["crates/collector/src/lib.rs: init_flow_collection", "crates/collector/src/lib.rs: init_bmp_collection", "crates/collector/src/lib.rs: init_udp_notif_collection"]}
