# Formal model of NetGauze in Lean 4

Source modelled: `/repo` (Rust workspace, crates under `/repo/crates`) at the pinned commit.
Nothing in `/repo` is built or run; the model is written by reading the code.

## Layout

* `lean/Verif/Core/*` – bytes, big-endian integers, the parser monad and the `SliceReader` model, reasoning
  combinators: `Reads` (round trip), `Safe`/`SafeAt` (no panic, no endless loop, minimal progress), `Fwd` (cursor only
  moves forward, also on error), `Inv`/`InvErr` (inversion), `Ctx` (parsers with a mutable context), `Logs` (write-only
  contexts), `Stream` (decoders on growing buffers), `Write`, `HMap`, `Prefix`
* `lean/Verif/<Area>/*.lean` – the code, function by function, each definition citing `file:lines`; files named
  `*Lemmas*`, `*Safe`, `*Frame` hold lemmas
* `lean/Verif/Props/*.lean` – the property theorems, with their specification vocabulary and non-vacuity examples
* `properties.jsonl` – English statements, `MANIFEST.json` – property → theorem names, `seeded/LOG.jsonl` – log of
  wrong programs the theorems were tested against

## Modelling conventions

* A byte is `UInt8`, a buffer is `List UInt8`; Rust integers `u8/u16/u32/u64` are `UInt8/16/32/64`, so truncating casts
  (`len as u16`) are literally `UInt16.ofNat len`; `u128` and IPv6 addresses are `BitVec 128`, IPv4 addresses `UInt32` or
  octet lists. `usize` is `Nat` (64-bit overflow would need buffers of 2^64 bytes).
* `SliceReader` is `Reader = {buf, offset}`. A parser is `Reader → Res ε α × Reader`: the cursor survives errors, because
  the lenient BGP code keeps parsing with the cursor a failing sub-parser left behind. Functions with `&mut ctx` are
  `CParser σ ε α`, the context survives errors too.
* `Res ε α = ok a | err e | fault f`, `f` being `panic` or `hang`. Every Rust operation that can panic (indexing,
  slicing, `unwrap`, integer overflow) is an explicit `panic`; every `while` loop is run by a combinator that reports
  `hang` when an iteration succeeds without consuming anything, so totality of Lean functions hides nothing.
  Integer overflow is a panic as in builds with overflow checks; release builds wrap instead (noted at the definitions).
* Error enums are modelled with the offsets and values they carry.
* Hash maps are lookup functions (`HMap`); iteration order is a separate list constrained by `HMap.Enum`, so theorems
  quantify over it.
* Enums with a fallback variant (`Unknown(code)`) and `strum::FromRepr` enums are subtypes of codes, inductives or plain
  codes. `Box<str>`/`String` is Lean `String`; UTF-8 validation is Lean core's. `f32`/`f64` are bit patterns.
* Time (tokio timers, chrono) is an explicit event or an integer; the tokio scheduler is a nondeterministic choice of the
  next event.
* Capacity hints (`with_capacity`, `count_*`) are left out: they do not influence results.
* Writers are `Res ε Bytes`: the octets appended. What a writer has already appended before it returns an error is not
  modelled.

## Trusted base

* Lean 4.33.0 kernel; the theorems depend on the axioms `propext`, `Classical.choice`, `Quot.sound` only (checked by
  `vcheck` for every theorem; many depend on fewer).
* The hand translation Rust → Lean (each definition cites the lines it models).
* Semantics assumed for external crates: `bytes::BytesMut::{split_to, advance, clear}`, `byteorder` big-endian writers,
  `ipnet::{Ipv4Net,Ipv6Net}::new` (rejects only over-long prefix lengths, keeps host bits), `std` integer conversions,
  `HashMap`/`BTreeMap` lookups, `tokio_util` `FramedRead` (calls `decode` until `None`, then appends what it reads).

## Coverage

Modelled in full: `parse-utils` reader and prefix helpers; `udp-notif-pkt` packets, codec and raw decoding; `analytics`
aggregation and reduction helpers; `bgp-pkt` capabilities, communities, NLRI of every family, BGP-LS NLRI and attribute,
Prefix-SID attribute, all path attributes, all messages, error-to-NOTIFICATION mapping, codec; `bgp-speaker` connections, peers and their tasks (a transition
system with explicit time, `run` can be dropped wherever it waits, every write can fail or stay pending).

`bmp-pkt` v3 and v4 messages, parsing context and codec, and `flow-pkt` (IPFIX, NetFlow v9, the field readers and writers of `ipfix-code-generator` for each data type, with the registry of elements as a parameter) are modelled in full too. Of `netconf-proto` the framing over SSH is modelled, with reading and writing XML as parameters. Of the collector the enrichment cache, the actor that applies it to flow packets, the aggregation of flow records with its configuration and the generated operations on fields, the renormalization of sampled flows, with binary64 arithmetic, the enrichment from option records, the enrichment from files, with pmacct maps read by characters and JSON and addresses as parameters, the enrichment from an inventory and the labels and telemetry messages of YANG push are modelled. Of `yang-push` the validation of notifications is modelled, with decoding, schemas and validity as parameters. So is the cache of YANG libraries, on disk and in memory, with file contents other than schemas as values, and the actor that serves it, with what devices answer as parameters. Loading of libraries from devices and extending of libraries are modelled, with the texts of schemas and what is read from them as parameters. The reader of YANG schemas is modelled on texts as lists of characters; characters from 256 on are classed by parameters, loops have rounds, and a loop that has not ended after any number of rounds does not end. Registration of YANG libraries is modelled, with the sorting of graphs as a parameter with the contract of petgraph, the registry as any machine that answers, and what is read from schemas as a parameter. The publishers to Kafka, as JSON, Avro and YANG, and the publisher to HTTP are modelled as histories of calls, with serializers, encoders, caches, registries, brokers and servers as parameters that may answer by all calls before; that a send is not interrupted by commands, and which of two events that are ready is taken, is in the lists of events. `udp-notif-service` and `flow-service` actors and supervisors: subscribers, decoding by peer, purges, listing of peers; time, what of channels is closed and how sends end are in the lists of events; sockets, gauges and queries for templates are left out. `bmp-service` actor: subscribers, tasks of connections with their copies of the table of subscribers and updates that may be overwritten, notices of ended connections; which task runs next and how sends end are in the lists of events; an abort is taken to take effect at once, though a task on another thread goes on to its next wait; decoding and gauges are left out. `bmp-service` server and handle: all atomic accesses and looks at `Notify` are steps of their own, in any order; `Notify` of tokio is modelled by its number of calls; the service answers in any way. Of reading and decoding captures the crates `pcap-parser` and `pdu` are parameters, as are JSON, UTF-8 and CBOR; opening and writing files is not modelled. Messages of NETCONF are modelled as the events that quick-xml gives for their XML, with the bindings of namespaces at each: the reader and writer of `xml_utils.rs`, `protocol.rs` and `capabilities.rs`; lexing octets into events is left out but for the text of elements, dates are parameters. The NETCONF client is modelled over messages, without SSH, time and bytes; what subscriptions and filters are read from data is a parameter there, and fetching is modelled for subscriptions by their number. What the collector publishes of flows is modelled from the fields of records to Avro values and the schema, for `flow/config.rs` and the conversions of `flow/mod.rs` and the code generator; which elements have names for their values and how values are shown as text are parameters, and the JSON output is left out. Of BMP as it is published for pmacct all of `bmp/pmacct_schema.rs` is modelled but for Avro encoding; names of registries and text of IPv6 addresses, prefixes and elements are parameters. The BGP listener and the supervisor of peers are modelled as steps of sockets, reports and tasks: a connection is an address and a number, the task of a peer is what it was sent and whether it has ended, what it reports is any sequence; peers registered or removed while the listener runs are left out because it borrows both for ever. Notifications of YANG-Push are modelled as trees of JSON, as the derived implementations of `serde` read and write them, flattened fields included; text of JSON, octets of CBOR and dates are parameters. Structures of YANG libraries and validation of contents against schemas are not part of this. Subscriptions and filters of YANG-Push are modelled as they are written to and read from events of XML, with bindings of namespaces in force at each event; dates are a parameter. The consumer of operations from Kafka is modelled over what the client of Kafka gives and the channels of actors as a machine that answers in any way; how messages are read is a parameter with a state. The supervisor of BMP actors is modelled with each command as one step of all actors, and with replies collected over a bounded channel by steps in any order; that a failed channel of replies is only logged, and how the supervisor waits for actors to end, are not. Of the start of the collector it is modelled which actors are made for a configuration, what they read, which tasks are waited for, and which actors are told to stop. Records of JSON publishers are modelled over what `serde` writes of a message and how payloads are read. The end of the collector is modelled over collections that end, fail or are interrupted. Registries of IANA are modelled as trees of XML, for the elements and entries that are read and the enumerations that are generated for them, which are taken for the functions that they define; links in descriptions are a parameter, and the generated code as text is left out.

Not modelled: CLI, YAML configuration, Kafka/HTTP/OpenTelemetry I/O, allocation failure, `serde` formats, logging,
generated IPFIX information-element tables beyond the shape used by the template machinery.

## Per property

| id | title | status | model | how proved |
|----|----|----|----|----|
| C01 | Byte cursor never over-reads, never loses bytes, and failed reads leave it untouched | proved | `Core/Reader` | each `SliceReader` operation against a specification over the octet list; induction over operation lists |
| C02 | Reduced-size integer reads equal the mathematical value of the bytes | proved | `Core/Reader` | equality with the positional value / two's complement value for every width |
| C03 | IP prefix decoding reads ceil(len/8) octets and accepts exactly the legal prefix lengths | proved | `Core/Prefix` | characterisation of acceptance, round trip |
| C04 | Tagged IP address round-trip and size accounting | partial | `Core/Prefix` | round trip; `len()` refuted |
| C05 | BGP message framing: a decoded message accounts for every byte of its frame | proved | `Bgp/Msg` | case analysis of the header over all byte strings (`Bgp/MsgFrame`) |
| C06 | BGP message round-trip | proved | `Bgp/Msg`, `Bgp/Codec` | `CReads` round-trip combinators, induction over element lists; streams via `Core/Stream` |
| C07 | BGP writer length accounting | partial | `Bgp/Msg` | length equations for well-formed messages, witnesses for the rest |
| C08 | BGP stream decoding is independent of how TCP chunks the bytes | proved | `Bgp/Codec` | `Core/Stream`: a decoder that is `Local` is independent of chunking, by induction over chunkings |
| C09 | BGP codec makes progress on every malformed frame | partial | `Bgp/Codec` | case analysis; termination by induction on the buffer length |
| C10 | 4-octet AS numbers are used exactly when both sides advertised them | proved | `Bgp/Codec` | invariant over arbitrary histories of encode/decode calls |
| C11 | Recoverable parsing errors are reported with the message they belong to | partial | `Bgp/Codec` | the error log is write-only (`Core/Logs`); exact content of the returned log |
| C12 | OPEN acceptance | partial | `Bgp/Msg` | iff characterisation of accepted OPEN bodies (`Bgp/OpenLemmas`) |
| C13 | Capability round-trip | partial | `Bgp/Caps` | round trip per capability, witnesses |
| C14 | Lenient capability parsing never aborts the OPEN and terminates | proved | `Bgp/Msg` | logs and outcomes of the capability loop, by induction over the loop |
| C15 | Decoding failures map to the NOTIFICATION code of the failing layer | partial | `Bgp/Msg` | error-to-NOTIFICATION map against octet-level fault descriptions |
| C16 | UDP-notif packet round-trip | proved | `UdpNotif/*` | round trip, acceptance characterisation |
| C17 | UDP-notif reassembly is independent of arrival order and interleaving | proved | `UdpNotif/*` | invariant over datagram histories |
| C18 | UDP-notif decoder never panics on any datagram history | partial | `UdpNotif/*` | exact fault condition; witness |
| C19 | Reassembled UDP-notif packets keep the options of their segments | partial | `UdpNotif/*` | refuted; the part that holds proved |
| C20 | Window aggregation accounts for every item exactly once | proved | `Analytics/*` | invariant over input sequences (permutation of inputs) |
| C21 | An emitted window is never emitted again | proved | `Analytics/*` | windowing invariant |
| C22 | Late classification | proved | `Analytics/*` | windowing invariant, projection to one key |
| C23 | An emitted window contains the timestamps of its items | partial | `Analytics/*` | arithmetic; witness |
| C24 | Flow codec progress and resynchronisation | partial | `Flow/*` | case analysis of the codec |
| C25 | Data records are decoded with the most recent template for their set id | partial | `Flow/*` | template map as a state; induction over message histories |
| C26 | Set framing: a set consumes exactly its declared length | proved | `Flow/*` | sub-reader discipline of sets |
| C27 | Template record round-trip | partial | `Flow/*` | round trip by induction over field lists |
| C28 | Flow decoding terminates on every input | proved | `Flow/*` | fault/hang freedom of the loops |
| C29 | BMP codec progress and exact framing | proved | `Bmp/*` | case analysis of the codec |
| C30 | BMP stream decoding is independent of chunking | proved | `Bmp/*` | `Core/Stream` |
| C31 | ADD-PATH for a monitored peer is on exactly when negotiated in that direction | partial | `Bmp/*` | `update` against a negotiation relation over capability lists |
| C32 | BMP peers do not influence each other; peer down forgets | partial | `Bmp/*` | frame conditions of `update`; witness for the second key |
| C33 | Session state is coherent with the transport connection | partial | `Speaker/*` | inductive invariant of the transition system |
| C34 | Established requires a completed handshake | partial | `Speaker/*` | trace invariant |
| C35 | Hold timer follows the negotiated hold time | partial | `Speaker/*` | invariant; witness for UPDATE |
| C36 | Valid UPDATE messages do not tear down the session | partial | `Speaker/*` | witnesses and the part that holds |
| C37 | Malformed UPDATE treatment is the strongest one required | partial | `Speaker/*` | maximum over a list, permutation invariance |
| C38 | Administrative commands take effect in the order they are issued | partial | `Speaker/*` | witness (LIFO) |
| C39 | Collision resolution keeps the same connection on both ends | partial | `Speaker/*` | two-party analysis |
| C40 | A started peer keeps trying to connect | partial | `Speaker/*` | witness (no retry) |
| C41 | Reducing flow fields combines every value once, in any order | proved | `Analytics/*` | permutation-invariant folds |
| C42 | NLRI round trip | partial | `Bgp/Nlri` | round trip per family, witnesses |
| C43 | NLRI parsing never panics | partial | `Bgp/Nlri` | `Safe` combinators, witnesses |
| C44 | Transitivity of extended communities | partial | `Bgp/Community` | case analysis, witness |
| C45 | Community round trip | partial | `Bgp/Community` | round trip, witness |
| C46 | BGP-LS NLRI survive a write/read round trip and malformed ones never crash the reader | partial | `Bgp/Ls` | round trip, `SafeAt` |
| C47 | BGP-LS attribute TLVs survive a write/read round trip and malformed ones never crash the reader | partial | `Bgp/LsAttr` | round trip per TLV, witnesses |
| C48 | The BGP Prefix-SID attribute survives a write/read round trip and malformed ones never crash the reader | proved | `Bgp/Sid` | round trip through three TLV layers |
| C49 | Every path attribute survives a write/read round trip | partial | `Bgp/Attr` | round trip per attribute, witnesses |
| C50 | No path attribute crashes the decoder | partial | `Bgp/Attr` | `Safe` combinators, witness |
| C51 | A decoded path attribute consumes exactly what its length field announces | proved | `Bgp/Attr` | inversion of a successful parse |
| C52 | Attributes are only accepted with the flags of their category | proved | `Bgp/Attr` | inversion of a successful parse |
| C53 | AS numbers are decoded with the negotiated width and AS path segments are never empty | proved | `Bgp/Attr` | inversion of a successful parse, `Reads` |
| C54 | No BGP message crashes the decoder | partial | `Bgp/Msg` | `CSafe` combinators: every loop consumes, witness |
| C55 | A malformed capability costs only itself | partial | `Bgp/Msg` | induction over the capability loop, witness |
| C56 | A malformed path attribute costs only itself | partial | `Bgp/Msg` | induction over the attribute loop, witness |
| C57 | A stopped peer is down | partial | `Speaker/*` | invariant of executions, witness |
| C58 | Nothing a neighbour does ends the task of a peer | partial | `Speaker/*` | step analysis, witnesses |
| C59 | Every UPDATE received in Established is reported | partial | `Speaker/*` | step analysis, witness |
| C60 | A resolved collision leaves a working session | partial | `Speaker/*` | step analysis, witness |
| C61 | The OPEN carries what is configured | partial | `Speaker/*` | invariant over the traces of all connections, witness |
| C62 | A malformed message is answered with its NOTIFICATION | partial | `Speaker/*` | case analysis of the handlers, witness |
| C63 | Expiry of the hold timer ends the session with a NOTIFICATION | proved | `Speaker/*` | case analysis of the handlers |
| C64 | KEEPALIVE messages are sent in time | proved | `Speaker/*` | invariant, case analysis |
| C65 | Messages of the user are sent in Established only | partial | `Speaker/*` | step analysis, witness |
| C66 | Asking for statistics does not disturb a peer | partial | `Speaker/*` | step analysis, witness |
| C67 | Incoming connections are accepted while there is room | partial | `Speaker/*` | step analysis, witness |
| C68 | BMP messages are read back as written | partial | `Bmp/*` | `CRd` round trip through all parsers, witnesses |
| C69 | No BMP octets make the decoder panic | partial | `Bmp/*` | `CInv` invariant on label limits, witnesses |
| C70 | Decoding BMP is a function of the stream | partial | `Bmp/*` | relational (`CSame`), induction on the stream, witness |
| C71 | Only Peer Up, Peer Down and Termination influence later messages | proved | `Bmp/*` | relational, induction on the stream |
| C72 | No octets of a BMP message are ignored | partial | `Bmp/*` | inversion of parsers, witnesses |
| C73 | Decoded BMP messages carry the BGP messages they should | proved | `Bmp/*` | postconditions (`CPost`) |
| C74 | A Peer Up that does not carry OPENs is rejected with the offending message type | partial | `Bmp/*` | forward run of the parser, witness |
| C75 | Flow field values mean what their octets stand for | partial | `Flow/Ie` | inversion and forward run of the reader of each data type against an independent meaning of octets, witnesses |
| C76 | Flow field values survive being written | partial | `Flow/Ie` | `Reads` round trip per data type, witnesses |
| C77 | IPFIX messages are read back as written | partial | `Flow/*` | `CRd` round trip with a relation between the templates of sender and receiver, witnesses |
| C78 | NetFlow v9 packets are read back as written | partial | `Flow/*` | as C77, with the count of records as loop state, witnesses |
| C79 | Aligned NetFlow sets end on a multiple of four octets | partial | `Flow/Packet` | arithmetic on the written length, witness |
| C80 | The record count of a NetFlow header is the number of records | partial | `Flow/Packet` | induction on the loop over the sets, witnesses |
| C81 | Flow messages come out of a stream however it is cut | partial | `Flow/Codec` | induction on chunks and messages, witness |
| C82 | Flow protocols and observation domains do not influence each other | partial | `Flow/Codec` | relational, induction on the datagrams, witness |
| C83 | Padding of flow sets is ignored | partial | `Flow/Packet` | as C77, witnesses |
| C84 | A withdrawn template is unknown | partial | `Flow/*` | forward run of the reader, witness |
| C85 | NETCONF messages in chunks are put together | partial | `Netconf/Codec`: `nextChunk`, `chunks`, `decode` (XML is a parameter) | induction over the chunks, witness |
| C86 | NETCONF messages are read back as written | partial | `Netconf/Codec`: `encode`, `decode` | from C87 with a single piece |
| C87 | NETCONF messages come out however the stream is cut | partial | `Netconf/Codec` and the stream relation of `Core/Stream` | induction over messages and pieces, witness |
| C88 | Only RFC 6242 framing is accepted | partial | `Netconf/Codec` | induction over the chunks, inversion of the numeral reader |
| C89 | Enrichment returns what was loaded and not ended | proved | `Collector/Enrichment`: the cache as maps, `Collector/Spec`: histories | invariant over all histories: content of the cache is the survivor of highest weight |
| C90 | Enrichment prefers higher weights and then more specific scopes | partial | `Collector/Enrichment`, `Collector/Spec` | from C89 and the order of the loops over the scopes, witnesses |
| C91 | Enrichment of peers and domains is separate | proved | `Collector/Enrichment` | from C90: survivors of a filtered history |
| C92 | An upsert can be undone | partial | `Collector/Enrichment` | from C90: survivors of an extended history, witness |
| C93 | Sources of different weights can load in any order | proved | `Collector/Enrichment` | from C90: survivors of a history of upserts |
| C94 | The enrichment cache gives up what is deleted | proved | `Collector/Enrichment` | invariant: no empty map is kept |
| C95 | Enriched packets keep their data | proved | `Collector/Actor` on the packets of `Flow/Packet` | induction over the events, from C90 |
| C96 | Aggregation reports each group of flow records once | proved | `Collector/Aggregation` with the windows of `Analytics/Model`, `Collector/AggSpec`: groups of records | refinement: the caches of all windows hold the groups, from the invariant of the windows (C20–C22) |
| C97 | Aggregated fields mean what the operation says | partial | `Collector/FieldOps` | induction over the values, linear orders per type, extensionality of bits, witnesses |
| C98 | An accepted aggregation can be carried out | partial | `Collector/Aggregation`: `Config.unify` | induction over the loops, case analysis per type, witnesses |
| C99 | Packets of flow records are late as a whole | proved | `Collector/Aggregation`, `Collector/AggSpec` | induction over the packets |
| C100 | Stopping the aggregation loses nothing received | partial | `Collector/Aggregation`: `Acts` | prefix of the run to the end (determinism), witness |
| C101 | Counters of sampled flows are multiplied by the sampling ratio | partial | `Collector/Float64`, `Collector/Renormalization`, `Collector/RenormSpec` | error bounds of rounding composed over conversion, division and product; witnesses by evaluation |
| C102 | Renormalization loses no traffic | partial | `Collector/Renormalization` | monotonicity of rounding, witnesses |
| C103 | Renormalization changes nothing but counters | proved | `Collector/Renormalization`: `renormalize`, `RenormRuns` | induction over records, sets and packets |
| C104 | Renormalization keeps the order of counters | proved | `Collector/Renormalization`: `scale` | monotonicity of rounding |
| C105 | A record is renormalized once | partial | `Collector/Renormalization` | the second pass reads the same parameters; witness |
| C106 | Option records become updates of what is known about the exporter | proved | `Collector/FlowOptions`, `Collector/OptionsSpec`: what records tell, on lists of fields | from maps to lists: lookups by element are first occurrences, values are a permutation |
| C107 | What an exporter announces is added to its flows | partial | `Collector/FlowOptions`, `Collector/Enrichment` | from C106 and C89: the value survives any history without rivals, witnesses |
| C108 | Option records of NetFlow v9 have the effect of those of IPFIX | partial | `Collector/FlowOptions`: `convertScope` | from C106, witness |
| C109 | All caches learn from option records in order | proved | `Collector/FlowOptions`: `OptionsRuns` | induction over the packets |
| C110 | Announced sampling is applied to the counters of flows | partial | `Collector/FlowOptions`, `Collector/Enrichment`, `Collector/Renormalization` | composition of C107, C89 and C101, witnesses |
| C111 | Nothing is enriched from lines that are gone | proved | `Collector/FileInput`, `Collector/MapText`, `Collector/FilesSpec`: texts as they are put together | the cache of lines is what was seen last; invariant over all runs: survivors come from lines that stand |
| C112 | What the files say is known | partial | `Collector/FileInput`, `Collector/FilesSpec` | invariant over all runs: what stands survives, if lines are apart; witness |
| C113 | Lines of files are understood | proved | `Collector/MapText`: the parser by characters, `Collector/FileInput` | inversion of each part of the parser against the grammar |
| C114 | Identifiers of pmacct maps reach the flows | partial | `Collector/MapText`, `Collector/FileInput`, `Collector/Enrichment` | composition of C111, C112 and C89 |
| C115 | Flows are not enriched from nodes that left the inventory | proved | `Collector/Sonata`, `Collector/InventorySpec`: the inventory by its last messages | the cache has the addresses of the listed nodes; induction over messages, for any notion of what operations bring and end |
| C116 | Nodes of the inventory are known | partial | `Collector/Sonata`, `Collector/InventorySpec` | induction over messages, if addresses are different; witness |
| C117 | YANG push messages have the labels of their peer | proved | `Collector/YangLabels`, `Collector/YangMessages`, histories in `Collector/InventorySpec` | each slot of the cache holds what the history says, by induction; induction over events |
| C118 | YANG push messages tell their subscription | partial | `Collector/YangMessages` | inversion; witness |
| C119 | The inventory labels YANG push messages | partial | `Collector/Sonata`, `Collector/YangLabels`, `Collector/InventorySpec` | the inductions of C115 and C116 with labels, composed with C117; witness |
| C120 | A notification with a content identifier is valid | proved | `YangPush/Validation`, `YangPush/ValidationSpec`: histories by packets and responses | invariant: what is cached for a subscription agrees with the last response about it; after a response the entry stays answered |
| C121 | A notification is forwarded at most once | proved | `YangPush/Validation`, counts in `YangPush/ValidationCounts` | told and held are weighed against received, by induction over events |
| C122 | No notification is lost silently | partial | `YangPush/Validation` | equality of the weights of C121 for steady histories; witnesses |
| C123 | Notifications wait for their schemas and keep their order | partial | `YangPush/Validation` | invariant: at most one held packet can be let out; witness |
| C124 | What is held is limited | partial | `YangPush/Validation` | invariant over all histories; witnesses |
| C125 | Peers do not interfere | partial | `YangPush/Validation` | simulation: the history without other addresses; witness |
| C126 | Notifications are forwarded with where they came from | partial | `YangPush/Validation` | invariant of C120; witness |
| C127 | Schemas are looked up once | partial | `YangPush/Validation` | induction over steady histories; induction over the number of responses for the witness |
| C128 | A response lets notifications out | partial | `YangPush/Validation` | what is held is described as it was last, by induction; never for packets without modules |
| C129 | A restart does not lose YANG libraries | partial | `YangPush/Storage`, `YangPush/Library` | invariant between cache and disk over all histories; loading is a fold whose order does not matter; schemas by injectivity of file names |
| C130 | What is found for a description was put for it last | partial | `YangPush/Storage` | invariant over all histories against a ledger of what was put and removed |
| C131 | What is found for a subscription number is its description | partial | `YangPush/Storage` | invariant that numbers and descriptions agree, over all histories; a witness otherwise |
| C132 | Removing a library removes that library | partial | `YangPush/Storage` | reachable caches; filtering of maps; a witness for numbers |
| C133 | Removing a description removes that description | partial | `YangPush/Storage` | reachable caches; libraries and the descriptions listed with them; a witness for numbers |
| C134 | Every lookup of a YANG library is answered | partial | `YangPush/CacheActor` | balance of lookups, answers and those who wait, by induction; each who waits has a worker; never after a panic, by induction on later lookups |
| C135 | A YANG library is fetched once | partial | `YangPush/CacheActor` | invariant: a worker has somebody who waits for it, or what it is to bring is there; what is there stays |
| C136 | Answers fit what is looked up | proved | `YangPush/CacheActor` | invariant: those who wait asked, and what is there was brought |
| C137 | Notifications are validated with the library of their subscription | proved | `YangPush/CacheActor`, `YangPush/Validation` | C120 and C136 together |
| C138 | Loading of a YANG library ends | proved | `YangPush/Loading`, `YangPush/LoadingInv` | the names that were not visited get fewer, and what was visited is what was asked |
| C139 | What is loaded of a YANG library is what is needed | proved | `YangPush/Loading`, `YangPush/LoadingSpec`, `YangPush/LoadingDone` | an invariant of the loop against an inductive definition of what is needed |
| C140 | Loading of a YANG library succeeds | partial | `YangPush/Loading`, `YangPush/LoadingWell` | an invariant: no submodule is in the queue before its module; witnesses for the rest |
| C141 | Content identifiers tell YANG libraries apart | partial | `YangPush/Loading`, `YangPush/ContentId` | a text with holes determines what is in them; witnesses for the rest |
| C142 | A YANG library can be extended with another | partial | `YangPush/Extending`, `YangPush/ExtendingInv`, `YangPush/ExtendingWell` | induction over what is added; witnesses for the rest |
| C143 | Reading of YANG schemas ends | partial | `Yang/Parser`, `Yang/Suffixes` | induction over the text that is left; witnesses with which a loop does not move |
| C144 | Reading of YANG schemas does not panic | partial | `Yang/Parser`, `Yang/Suffixes` | induction over the rounds of the loops, for texts in ASCII; witnesses for the rest |
| C145 | The dependencies of YANG schemas are read as they are written | partial | `Yang/Spec`, `Yang/Reading`, `Yang/Skipping`, `Yang/Documents` | induction over the grammar of schemas |
| C146 | The metadata of YANG schemas is read as it is written | partial | `Yang/Spec`, `Yang/MetaRead` | induction over the grammar of schemas |
| C147 | All schemas of a YANG library are registered, with their references | proved | `YangPush/RegisteringGraph`, `RegisteringLoop`, `RegisteringWhole` | the graph is that of the references by induction over modules and includes; invariant of the loop over the order |
| C148 | All registered schemas are reached from the root | proved | `YangPush/RegisteringWhole` | induction against the order |
| C149 | Libraries with all their schemas are registered | partial | `YangPush/RegisteringWell` | a rank of what is included, induction over levels and modules; concrete library for the negation |
| C150 | Registering of YANG libraries ends | partial | `YangPush/RegisteringWell` | a rank of what is included bounds the levels; induction over levels for the negation |
| C151 | Registering of YANG libraries does not panic | partial | `YangPush/RegisteringCalm` | case analysis of all errors |
| C152 | References have the versions of the registry | partial | `YangPush/RegisteringWhole` | from C147 |
| C153 | No schema refers to itself | partial | `YangPush/RegisteringWhole` | from C147 |
| C154 | Messages are published to Kafka as JSON once, in their order | proved | `Publish/Kafka`, `KafkaSpec`, `KafkaRuns` | invariant over messages: the history of calls is made of one block for each message |
| C155 | Messages published to Kafka as JSON are accounted for | proved | `Publish/KafkaRuns` | invariant over messages |
| C156 | Retries to Kafka have an end | proved | `Publish/KafkaLemmas` | induction over retries |
| C157 | Values are published to Kafka as Avro once, in their order | proved | `Publish/KafkaRuns` | invariant over values and messages |
| C158 | Messages published to Kafka as Avro are accounted for | proved | `Publish/KafkaRuns` | invariant over values and messages |
| C159 | Publishing as Avro reports errors only if there are some | partial | `Publish/KafkaRuns` | invariant over values |
| C160 | Messages are published to Kafka with the identifiers of their schemas | proved | `Publish/KafkaYang` | invariant: what is cached is what the history of calls tells |
| C161 | Schemas are registered once for a content identifier | proved | `Publish/KafkaYang` | invariant over messages |
| C162 | Messages published to Kafka as YANG are accounted for | partial | `Publish/KafkaYang` | invariant over messages |
| C163 | Publishers to Kafka flush their queue before they end | partial | `Publish/Kafka` | case analysis of endings |
| C164 | Messages are posted to HTTP once, in their order | proved | `Publish/Http` | invariant over messages |
| C165 | All messages are posted to HTTP | partial | `Publish/Http` | invariant over messages |
| C166 | Messages posted to HTTP are counted | partial | `Publish/Http` | invariant over messages |
| C167 | Subscribers to datagrams are sent everything that is decoded, once and in order | proved | `Service/Datagram*` | run against a list of messages, by induction over events |
| C168 | Nothing is sent to subscribers that are gone | proved | `Service/Datagram*` | invariant over identifiers given out |
| C169 | Datagrams are accounted for | partial | `Service/DatagramRuns` | induction over events |
| C170 | Peers do not influence what is decoded from other peers | proved | `Service/DatagramRuns` | simulation of one decoder for each peer |
| C171 | Nothing that peers send ends a collector of datagrams | partial | `Service/DatagramRuns`, `Service/DatagramUsage` | induction over events, with C18 and C28 |
| C172 | Packets from one address go to one shard | proved | `Service/DatagramRuns` | run against a list of messages |
| C173 | Only unused peers are purged as unused | proved | `Service/DatagramUsage` | invariant over times of use |
| C174 | Purged peers are forgotten | partial | `Service/DatagramUsage` | induction over events |
| C175 | Silent peers are purged | partial | `Service/DatagramUsage` | invariants over times of use |
| C176 | Peers that were heard of are listed | proved | `Service/DatagramUsage` | induction over events |
| C177 | Subscribing to a supervisor is undone by unsubscribing | partial | `Service/Supervisor` | direct |
| C178 | A supervisor that can not bind sockets says so | partial | `Service/Supervisor` | induction over sockets |
| C179 | Subscribers to BMP get all messages of a connection, once and in order | proved | `BmpService/Delivery` | invariant: what a task has been given is what it has sent and what it owes |
| C180 | Nothing of new connections is sent to those that unsubscribed | proved | `BmpService/Delivery` | invariant: no table or update that a task has holds the identifier |
| C181 | Subscribing to open connections of BMP takes effect | partial | `BmpService/Runs`, `BmpService/Sending` | invariant: the last update that waits is the table of the actor; at most 16 and the notice of loss wait; disproof by runs |
| C182 | Open connections of BMP are listed | partial | `BmpService/Table`, `BmpService/Listing` | invariants of the table of tasks; disproof by a run |
| C183 | Disconnecting ends a connection of BMP | partial | `BmpService/Table`, `BmpService/Sending` | a task that is aborted does nothing; disproof by a run |
| C184 | Connections and messages of BMP are accounted for | proved | `BmpService/Counters` | induction over runs |
| C185 | Connections of BMP do not influence each other | proved | `BmpService/Table` | simulation with the run without the events of others |
| C186 | Subscribers do not end connections of BMP | partial | `BmpService/Counters` | invariant: all channels in tables, updates and messages in hand; disproof by a run |
| C187 | Signals of the BMP server are heard | partial | `BmpServer/Lobby` | invariant: who waits has an old number of calls; disproof by a run and an invariant |
| C188 | The service of a BMP server is asked about all that arrives | proved | `BmpServer/Requests` | ledger of what arrived, was asked and waits, by induction over runs |
| C189 | The BMP server counts its connections | proved | `BmpServer/Invariant` | invariant |
| C190 | No connection is served when the BMP server has returned | partial | `BmpServer/Invariant`, `BmpServer/Shutdown` | invariant: the end is told only when none is left; disproofs by runs |
| C191 | Shutting down ends the BMP server and its connections | partial | `BmpServer/Shutdown`, `BmpServer/Stuck` | invariant of all waits; disproof by a run and an invariant |
| C192 | Shutting down gracefully ends the BMP server | partial | `BmpServer/Graceful`, `BmpServer/Stuck` | invariant: while serve waits someone is counted or going to tell; disproof by a run and an invariant |
| C193 | Packets of a capture come out once, in order, with the numbers of their frames | proved | `Pcap/Reader`, `Pcap/Spec`, `Pcap/ReadLemmas` | induction on the blocks: reading is the frames one by one |
| C194 | TCP segments and UDP datagrams are read exactly | proved | `Pcap/Wire`, `Pcap/RefLib` | headers are written as in their RFCs; by computation with libraries that read them; a reference library meets what is assumed |
| C195 | Padding of frames is not payload | partial | `Pcap/Wire` | as C194, with padding; disproof for any padding |
| C196 | Reading a capture does not panic | partial | `Pcap/Reader` | cases of what the libraries answer; disproof by witnesses |
| C197 | Frames are read with the link type of their interface | partial | `Pcap/Sections` | the link types as the format says, by section; induction |
| C198 | Decoding a capture ends | partial | `Pcap/Decoder`, `Pcap/Runs`, `Pcap/Tame`, `Pcap/Ends` | invariants of the codecs under which each message takes octets off the buffer and nothing panics |
| C199 | Messages of a TCP flow do not depend on its segments | partial | `Pcap/Streams`, `Pcap/Clean` | the loop is the stream semantics of C08 and C30; disproof by witnesses |
| C200 | Flows of a capture do not influence each other | partial | `Pcap/Runs` | induction with the entry of one flow |
| C201 | Datagrams are decoded on their own | partial | `Pcap/Clean` | a run with empty buffers; induction |
| C202 | The limit of frames and their numbers are right | partial | `Pcap/Runs` | a run is the reader and then the handler; numbers increase (C193) |
| C203 | A malformed message in a capture costs only itself | partial | `Pcap/Decoder` | induction on the buffer |
| C204 | A payload that cannot be read does not stop the decoding of UDP-notif | partial | `Pcap/Ends` | induction on the results |
| C205 | Decoded BGP messages are written as such | partial | `Pcap/Clean`, `Bgp/Strict` | invariant: in strict mode a message leaves nothing on record |
| C206 | Text that is written into a NETCONF message is the text that is read | proved | `NetconfXml/Writer`, `NetconfXml/SpecLemmas` | induction over the text: lexing what is escaped gives back its characters |
| C207 | Text of an element is read as XML says | partial | `NetconfXml/Parser`, `NetconfXml/Spec` | small separate account of text in XML; induction over the content |
| C208 | Reading a NETCONF message ends | partial | `NetconfXml/Ends`, `NetconfXml/EndsMessages` | triples of Hoare: no fault, what is left is a suffix, and each turn of a loop leaves fewer events; loops carry fuel of which running out is a hang |
| C209 | A request that is written is read back | partial | `NetconfXml/RoundTripOps`, `NetconfXml/RoundTripRpc`, `NetconfXml/Copy` | what each operation is written as, and that its reader takes exactly that off any input; copying by induction over balanced content |
| C210 | A reply that is written is read back | partial | `NetconfXml/RoundTripErrors`, `NetconfXml/RoundTripAll` | the same for errors with their details; induction over lists of errors and details |
| C211 | A hello that is written is read back | partial | `NetconfXml/RoundTripReply`, `NetconfXml/CapLemmas` | each kind of capability is read back from its text; induction over the list |
| C212 | Configuration of a request arrives whole | partial | `NetconfXml/Copy`, `NetconfXml/SpecLemmas` | induction over balanced content |
| C213 | A reply without data is read as one | partial | `NetconfXml/RoundTripAll` | from C210; concrete document for the empty tag |
| C214 | Content keeps the namespaces of its names | partial | `NetconfXml/Names`, `NetconfXml/WellFormedness` | induction over balanced content: names resolve alike where the default namespace is the same |
| C215 | The text of a YANG schema is delivered exactly | partial | `NetconfXml/WellFormedness`, `NetconfXml/RoundTripAll` | text without ampersands is a fixed point of decoding |
| C216 | A capability means the same when it is written again | partial | `NetconfXml/Capability`, `NetconfXml/CapLemmas` | invariant of what parameters gather, then the laws of C211 |
| C217 | White space around a capability makes no difference | partial | `NetconfXml/Capability`, `NetconfXml/CapLemmas` | trimming; cases of the names |
| C218 | A hello with capabilities that are not known is accepted | partial | `NetconfXml/HelloDoc` | induction over the list of capabilities |
| C219 | What is written is well formed | partial | `NetconfXml/WellFormedness`, `NetconfXml/Spec` | balance as a separate check with a stack; what is written is balanced, by cases and induction |
| C220 | Namespaces of one's own do not change messages | partial | `NetconfXml/Writer` | resolution of names in the declarations that are written; concrete lists |
| C221 | YANG libraries are read back | partial | `NetconfXml/YangLib`, `NetconfXml/YangLibReads`, `NetconfXml/YangLibRound`, `NetconfXml/YangLibWrites` | reading of what each writer makes, element by element with induction over lists; maps of what the constructors make are themselves |
| C222 | The order of children of a YANG library does not matter | proved | `NetconfXml/YangLibRound` | induction over the children |
| C223 | Modules are read whatever the order of their leaves | partial | `NetconfXml/YangLibSkip` | closing an element passes over balanced content; concrete documents for what is lost |
| C224 | Datastores are told by namespace | proved | `NetconfXml/YangLib` | resolution of the prefix in the declarations at the name and around it |
| C225 | Lookups in a YANG library find what was listed last | proved | `NetconfXml/YangLibMaps` | induction over the list that a map is made of |
| C226 | An edit that does not say its default operation merges | proved | `NetconfXml/RoundTripOps` | each optional part is there or is not |
| C227 | Requests of a session have different message identifiers | proved | `NetconfClient/Client.lean` | Sessions as state of what is to come and what was sent; the invariant that requests have growing numbers is kept by each call and by sequences of calls, and decimal numbers are injective. |
| C228 | The answer of a call is that of its own request | proved | `NetconfClient/Client.lean` | Equivalence of the result of a call with the form of the next message. |
| C229 | Errors of the server are reported | partial | `NetconfClient/Client.lean` | From C228. |
| C230 | The YANG library is asked for once | partial | `NetconfClient/Client.lean` | Induction on the number of calls. |
| C231 | Calls go on after a stray reply | partial | `NetconfClient/Client.lean` | Induction on the calls. |
| C232 | References to filters are resolved | partial | `NetconfClient/Client.lean` | Running the requests; how data of subscriptions and filters is read is a parameter. |
| C233 | What is fetched for a subscription is what it needs | partial | `NetconfClient/Client.lean` | A datastore offers a module by a relation over the library of its own; the search is sound for it, and complete where sets are listed. |
| C234 | Fetching is repeated as configured | proved | `NetconfClient/Client.lean` | Induction on the attempts that are left. |
| C235 | What is published of flows is of the schema that is published | partial | `Collector/Output.lean` | Cases on transformations and kinds for one field, and induction on the configuration for the record; conformity is defined with the names of Avro types. |
| C236 | Accepted configurations convert all records | partial | `Collector/Output.lean` | Cases on what validation accepts, for each transformation. |
| C237 | Fields are selected as configured | proved | `Collector/Output.lean` | Lookup of occurrences from the enrichment model; arithmetic of shifts and masks. |
| C238 | Numbers are published with their values | partial | `Collector/Output.lean` | Cases on kinds of values; conversion of 64 bits to signed numbers. |
| C239 | Times as text keep their milliseconds | partial | `Collector/Output.lean` | Evaluation for any time, and two times with one text. |
| C240 | Each data record is published, and fails, for itself | partial | `Collector/Output.lean` | Induction on the records of a packet. |
| C241 | Maps keep all that is selected | partial | `Collector/Output.lean` | Induction on what is put into the map. |
| C242 | Labels are published with their places | partial | `Collector/Output.lean` | Cases on the ten places, and on the list of entries. |
| C243 | AS paths are put together as RFC 6793 says | partial | `Collector/Pmacct.lean`, `Collector/PmacctLemmas.lean` | Paths as lists of members; induction on segments. |
| C244 | AS paths can be read back from their text | proved | `Collector/Pmacct.lean`, `Collector/PmacctLemmas.lean` | Induction on members; texts are cut at the first character that is not a digit. |
| C245 | Each route of an update is published once | partial | `Collector/Pmacct.lean`, `Collector/PmacctLemmas.lean` | Cases on families; the last attribute of a fold. |
| C246 | The end of a RIB is published as such | partial | `Collector/Pmacct.lean`, `Collector/PmacctLemmas.lean` | Induction on attributes. |
| C247 | Routes are published with the attributes of their update | partial | `Collector/Pmacct.lean`, `Collector/PmacctLemmas.lean` | A fold keeps the last value. |
| C248 | Each counter of a report is published | partial | `Collector/Pmacct.lean`, `Collector/PmacctLemmas.lean` | Cases on counters. |
| C249 | The table of a message is that of its peer | proved | `Collector/Pmacct.lean`, `Collector/PmacctLemmas.lean` | Bits of an octet, by cases on the three kinds of types. |
| C250 | Only messages that pmacct has no record of are refused | partial | `Collector/Pmacct.lean`, `Collector/PmacctLemmas.lean` | Cases on messages of both versions. |
| C251 | Times are published with six digits of microseconds | partial | `Collector/Pmacct.lean`, `Collector/PmacctLemmas.lean` | Worth of digits with leading zeros. |
| C252 | Route distinguishers can be told apart | proved | `Collector/Pmacct.lean`, `Collector/PmacctLemmas.lean` | Injectivity of text, by cases on types. |
| C253 | Communities can be read back from their text | partial | `Collector/Pmacct.lean`, `Collector/PmacctLemmas.lean` | Injectivity of joined texts without blanks. |
| C254 | No information element is lost | partial | `Collector/Pmacct.lean`, `Collector/PmacctLemmas.lean` | Induction on elements from the end. |
| C255 | Messages are published with the record of their type and numbered | partial | `Collector/Pmacct.lean`, `Collector/PmacctLemmas.lean` | Cases on messages. |
| C256 | Peers that come up or go down are published as they do | proved | `Collector/Pmacct.lean` | Unfolding, with cases on the address. |
| C257 | Connections go to the peer of their address | proved | `Speaker/Listener.lean` | What each step does is put into seven cases; by induction on runs peers that are registered stay, none that is waited for is registered, and what tasks got is what was logged as given to them. |
| C258 | Sockets are listened on independently | partial | `Speaker/Listener.lean` | Invariant for one socket: it is polled whenever the listener listens. For two, an invariant of all runs after a counterexample. |
| C259 | Unknown addresses get nothing without a policy | proved | `Speaker/Listener.lean` | Induction on runs. |
| C260 | A dynamic peer can try again | partial | `Speaker/Listener.lean` | Three steps are computed from any state; an invariant of all runs after a counterexample. |
| C261 | Peers do not hold each other up | partial | `Speaker/Listener.lean` | An invariant of all runs without reports after a counterexample. |
| C262 | There is one peer per key, and those removed are stopped | partial | `Speaker/Listener.lean` | Lemmas of maps; induction on runs and on steps of a task. |
| C263 | Notifications are read back | proved | `UdpNotif/Json.lean`, `UdpNotif/Notification.lean` | Equations of fields by name; each structure is read of what is written, by cases. |
| C264 | Notifications that are read are stable | partial | `UdpNotif/Json.lean`, `UdpNotif/Notification.lean` | What is read fits its types, by inversion of reading; then C263. |
| C265 | Nothing of a notification is lost | partial | `UdpNotif/Json.lean`, `UdpNotif/Notification.lean` | Induction on members: inserting keeps the last value of each name; flattened fields take only their names. |
| C266 | A notification that is carried is read or refused | partial | `UdpNotif/Json.lean`, `UdpNotif/Notification.lean` | Inversion of reading. |
| C267 | The order of members does not matter | partial | `UdpNotif/Json.lean`, `UdpNotif/Notification.lean` | Permutations keep the values of a name if there is one at most; induction on members for what is taken out. |
| C268 | Names of both drafts are read alike | proved | `UdpNotif/Json.lean`, `UdpNotif/Notification.lean` | Induction on members: values by names and aliases are the same after renaming. |
| C269 | Subscriptions that are fetched are told as they are | partial | `UdpNotif/Json.lean`, `UdpNotif/Notification.lean` | Cases of targets. |
| C270 | Targets are what documents say | partial | `UdpNotif/Json.lean`, `UdpNotif/Notification.lean` | Inversion of reading: a field is there exactly if its member is. |
| C271 | Encodings do not matter | partial | `UdpNotif/Json.lean`, `UdpNotif/Notification.lean` | Induction on documents: those with each name once stay as they are when read to a value. |
| C272 | Subscriptions are read back from XML | partial | `NetconfXml/Subscription.lean`, `NetconfXml/Sub*.lean` | The writer is shown to write a list of children, each of which the table of the reader takes as one step; induction on children. |
| C273 | Children of a subscription that are not known do not matter | proved | `NetconfXml/Subscription.lean`, `NetconfXml/Sub*.lean` | Children that are not in the table are steps that change nothing; induction on where they are inserted. |
| C274 | Terms of updates are read in any order and next to any others | partial | `NetconfXml/Subscription.lean`, `NetconfXml/Sub*.lean` | Induction on terms from the end; the loop stops at what is not in the table and closing passes over any balanced rest. |
| C275 | Versions of modules are read with all their parts | partial | `NetconfXml/Subscription.lean`, `NetconfXml/Sub*.lean` | The fixed sequence of reading, with skipping over any balanced rest. |
| C276 | Transports and encodings are known by module and name | partial | `NetconfXml/Subscription.lean`, `NetconfXml/Sub*.lean` | The text is split at its colon and its prefix is resolved at the element; the rest is compared. |
| C277 | Filters with names are read in either order | partial | `NetconfXml/Subscription.lean`, `NetconfXml/Sub*.lean` | The sequence of reading in both branches; the other branch fails at the tag it expects. |
| C278 | The order of the children of a subscription does not matter | proved | `NetconfXml/Subscription.lean`, `NetconfXml/Sub*.lean` | Each child changes one part of what was read; changes of different parts commute; induction on swaps of neighbours, then C273. |
| C279 | Targets are exactly one | partial | `NetconfXml/Subscription.lean`, `NetconfXml/Sub*.lean` | The changes of the children are run, and the decision on the target is by cases. |
| C280 | Prefixes of paths are kept with their namespaces | partial | `NetconfXml/Subscription.lean`, `NetconfXml/Sub*.lean` | Induction on parts of paths: after each part the scanner is outside of literals; the bindings in force are the declarations in order; then C272. |
| C281 | Filters by subtree are kept with their namespaces | partial | `NetconfXml/Subscription.lean`, `NetconfXml/Subtree.lean` | Balanced content without declarations has the same bindings in force all over; induction on events, and on uses of prefixes; then C272. |
| C282 | Sets of filters are read by name | partial | `NetconfXml/Filters.lean` | Children are read one by one by the table of the loop; induction on children, and on insertions by name. |
| C283 | A subscription is got by its number | partial | `NetconfClient/Push.lean` | What the readers of subscriptions and filters take from data (C272, C282) is put into the client; remaining elements are skipped by induction on balanced content. |
| C284 | Texts of flow records are published as configured | proved | `Collector/Output.lean` | The field of the output is found in the record; induction on zeros, on the list of names, and on the elements of an array. |
| C285 | Enumerations of registries keep every number | partial | `Flow/Registry.lean` | Entries are found by number and by name in lists with different names; places of arms by induction on the list. |
| C286 | Numbers of registries are read in every form | partial | `Flow/Registry.lean` | Induction on digits that stand for a number; the forms are told apart by what digits are not. |
| C287 | Names of registries become names of variants | partial | `Flow/Registry.lean` | What is not white space passes through lines, trimming and joining, by induction; characters of ASCII by cases. |
| C288 | Records of registries become entries | proved | `Flow/Registry.lean` | The fields of records are found, and texts that are searched for by induction; a record between others by lists. |
| C289 | Descriptions of elements keep their paragraphs | partial | `Flow/Elements.lean` | Induction on the parts of a description, with the flag of the loop as state. |
| C290 | Records of registries become elements | proved | `Flow/Elements.lean` | The first child of each name is found whatever is around it; the rest is taken in sequence. |
| C291 | Elements get the registries of their values | proved | `Flow/Elements.lean` | The latest entry of a table is found from its end; titles by induction on what is before the number. |
| C292 | Operations from Kafka reach every enrichment actor | proved | `Collector/Consumer.lean` | Induction on the events, with what each actor was sent; for one message induction on its operations and on the actors. |
| C293 | The consumer of Kafka tries for a bounded time and counts what is lost | partial | `Collector/Consumer.lean` | Induction on the attempts that are left; an invariant on the counters over all events. |
| C294 | Replies of all BMP actors reach the caller | partial | `BmpService/Supervisor.lean` | An invariant over all schedules of actors and handle: what was got, is queued and is pending is a permutation of all replies. A measure shows that every schedule ends. |
| C295 | Commands to the supervisor of BMP actors act on all actors | partial | `BmpService/Supervisor.lean` | Induction on the listeners for starting; for commands reasoning about each actor of a list of any length. |
| C296 | Each configured endpoint of the collector publishes | partial | `Collector/Wiring.lean` | Induction on groups and endpoints: which chains of actors are made, and that making them fails for no other reason. |
| C297 | Each endpoint of a group gets all messages | partial | `Collector/Wiring.lean` | From which chains read clones of a receiver, for all messages and all choices of the reader of each. |
| C298 | Enrichment stays within a group and reaches all its actors | proved | `Collector/Wiring.lean` | Induction on groups and endpoints, with the handles that are known so far. |
| C299 | A collection goes on while its parts run | partial | `Collector/Wiring.lean` | From the numbers of tasks in the sets that are waited for. |
| C300 | JSON records tell peer, writer and payload | partial | `Collector/JsonRecords.lean` | Induction on the members of an object for insertion; cases of the media type. |
| C301 | The collector exits as its collections do and stops them | partial | `Collector/Main.lean` | Induction on the events from the last one, with an invariant on the collections that have ended. |
| C302 | A collection that ends tells its actors to stop | partial | `Collector/Stopping.lean` | From which chains and inputs are made for a configuration, by induction on groups and endpoints. |

## Disagreements between the code and a property, and what is missing from partial claims

Every `_disproved` theorem exhibits a concrete input on which the stated property fails of the model.

* **C04** Tagged IP address round-trip and size accounting. Round trip and acceptance hold; the len() part is false: it omits the tag octet (c04_len_disproved). Witnesses: `c04_len_disproved`.
* **C07** BGP writer length accounting. len(), the header length and the octets written agree for well-formed messages, and OPEN over 4096 octets is refused; but UPDATE and NOTIFICATION over 65535 octets are written with a truncated length (c07_truncated_disproved), OPEN parameters over 255 octets with a truncated parameter length (c07_parameters_disproved), and multiple-labels capabilities with len() one too large (c07_labels_disproved). Witnesses: `c07_truncated_disproved`, `c07_parameters_disproved`, `c07_labels_disproved`.
* **C09** BGP codec makes progress on every malformed frame. A header with length 0 is an error that removes nothing, so a draining loop never ends (c09_disproved); everything holds for all other lengths. Witnesses: `c09_disproved`.
* **C11** Recoverable parsing errors are reported with the message they belong to. A frame that fails leaves its recorded errors behind for the next message (c11_disproved); exactly what is returned is proved, and that it is the errors of the message itself if the previous call returned a message. Witnesses: `c11_disproved`.
* **C12** OPEN acceptance. Acceptance is proved exactly; every rejection carries the offending value at its offset except the hold time, whose offset is two octets early (c12_hold_offset_disproved). Witnesses: `c12_hold_offset_disproved`.
* **C13** Capability round-trip. Round trip, length octet and len() for every capability except multiple labels, which is written without a length octet (c13_multipleLabels_disproved); oversized values are emitted with a wrong length octet (c13_oversize_disproved). Witnesses: `c13_multipleLabels_disproved`, `c13_oversize_disproved`.
* **C15** Decoding failures map to the NOTIFICATION code of the failing layer. Header and OPEN faults map exactly as RFC 4271 asks, and every failing body to the code of its layer (a malformed NOTIFICATION to code 5); for UPDATE, attribute length errors get subcode 9 and the attribute is never included as data (c15_length_disproved, c15_flags_disproved). Witnesses: `c15_length_disproved`, `c15_flags_disproved`.
* **C18** UDP-notif decoder never panics on any datagram history. False as stated: a truncated datagram followed by one of 0 or 1 octets panics (c18_disproved). The exact panic condition is proved, and absence of panics for all histories that avoid it. Witnesses: `c18_disproved`.
* **C19** Reassembled UDP-notif packets keep the options of their segments. Options of segment 0 are dropped (c19_disproved); options of all other segments are kept. Witnesses: `c19_disproved`.
* **C23** An emitted window contains the timestamps of its items. Window starts are whole minutes whatever the configured duration: containment fails below one minute and windows overlap above it (c23_disproved); both parts hold for the durations stated in c23_contains_partial. Witnesses: `c23_disproved`.
* **C24** Flow codec progress and resynchronisation. Progress and the unchanged buffer on None are proved in full. An IPFIX message that fails removes exactly its declared length, but five octets when it declares fewer than five (c24_disproved). Witnesses: `c24_disproved`.
* **C25** Data records are decoded with the most recent template for their set id. Proved for every history in which no message of that protocol failed, and that an undefined id is an error that changes no template. False in general: a message that fails at an undefined data set is abandoned, so that a template behind that set is not learnt and later data is read with the older one (c25_disproved). c25_failed says what a failed message leaves behind. Witnesses: `c25_disproved`.
* **C27** Template record round-trip. Proved for all records with an id from 256, at most 65535 fields and specifiers that the registry knows. False for elements of unknown vendors whose id has the top bit, and for ids below 256, which the types allow (c27_disproved). Witnesses: `c27_disproved`.
* **C31** ADD-PATH for a monitored peer is on exactly when negotiated in that direction. False as stated. A Peer Up fixes ADD-PATH for both directions of a peer according to its own direction bit, so adj-rib-out messages after a Peer Up without that bit are read with the wrong setting (c31_direction_disproved). A further Peer Up of a Loc-RIB instance keeps ADD-PATH of the families that it does not mention (c31_locRib_disproved), and so does one for the BGP identifier of its OPEN, if this differs from the header (c31_second_disproved). Proved: for every other message with the direction of the Peer Up, ADD-PATH is on exactly if negotiated, for all octets in version 3, and for all well-formed UPDATEs in versions 3 and 4. Witnesses: `c31_direction_disproved`, `c31_locRib_disproved`, `c31_second_disproved`.
* **C32** BMP peers do not influence each other; peer down forgets. False as stated. A Peer Up whose OPEN has another BGP identifier than its header changes the settings of the peer with the identifier of the OPEN (c32_other_disproved), and the Peer Down of that session does not remove them (c32_down_disproved). Proved: without such Peer Ups, all that comes out for a peer is as if the others were not there, and after its Peer Down as from a new codec. Termination is proved in full. Witnesses: `c32_other_disproved`, `c32_down_disproved`.
* **C33** Session state is coherent with the transport connection. Holds in calm executions: no operation is dropped while a message is being written and no start command comes while an incoming connection waits for its open delay. Each of the two can leave the FSM in a state without connection (c33_disproved, c33_dropped_disproved). Witnesses: `c33_disproved`, `c33_dropped_disproved`.
* **C34** Established requires a completed handshake. The handshake is proved of every connection in every execution; that the reported state is Established only with such a connection, in calm executions. An UPDATE received in OpenSent is reported, with the state Idle (c34_update_disproved). Witnesses: `c34_update_disproved`.
* **C35** Hold timer follows the negotiated hold time. The timer runs with the smaller hold time and KEEPALIVE restarts it; an UPDATE does not (c35_update_disproved), and with a hold time of zero the initial timer of 240 s stays on and ends the session (c35_zero_disproved). Witnesses: `c35_update_disproved`, `c35_zero_disproved`.
* **C36** Valid UPDATE messages do not tear down the session. Attributes after the second one of ORIGIN and AS_PATH are not looked at: the usual order ORIGIN, AS_PATH, NEXT_HOP ends the session (c36_order_disproved), and so does an UPDATE that only withdraws routes (c36_withdraw_disproved). The UPDATE messages that are accepted are those of the other theorems. Witnesses: `c36_order_disproved`, `c36_withdraw_disproved`.
* **C37** Malformed UPDATE treatment is the strongest one required. Holds without errors of ONLY_TO_CUSTOMER, unknown attributes and BGP-LS NLRI; the family that is reset depends on the order (c37_family_disproved), BGP-LS is reported as another family, ONLY_TO_CUSTOMER errors only discard the attribute, an unknown attribute that exceeds the list is reported as Normal. Witnesses: `c37_family_disproved`, `c37_ls_disproved`, `c37_otc_disproved`, `c37_unknown_disproved`.
* **C38** Administrative commands take effect in the order they are issued. Commands that wait are executed in reverse order (c38_reversed_partial, c38_disproved); in order if none is issued while another waits. Witnesses: `c38_disproved`.
* **C39** Collision resolution keeps the same connection on both ends. Holds without open delay; with one, each end can keep what the other closes (c39_disproved). Witnesses: `c39_disproved`.
* **C40** A started peer keeps trying to connect. False: after a failed first attempt the peer never tries again (c40_disproved). A connection that fails in OpenSent is retried. Witnesses: `c40_disproved`.
* **C42** NLRI round trip. Holds for all families except labeled unicast with a path identifier, which is not written (c42_labeled_path_disproved), and labels+prefix of 249 to 255 bits (c42_vpn_long_disproved); label limit 255 (meaning no limit) not covered by the round trip. BGP-LS NLRI not modelled here. Witnesses: `c42_labeled_path_disproved`, `c42_vpn_long_disproved`.
* **C43** NLRI parsing never panics. Holds up to 7 (VPN) and 10 (labeled) negotiated labels; beyond that a u8 computation overflows (panics with overflow checks, c43_vpn_disproved and c43_labeled_disproved). Witnesses: `c43_vpn_disproved`, `c43_labeled_disproved`.
* **C44** Transitivity of extended communities. False for non-transitive four-octet-AS and transitive opaque communities (c44_disproved); holds for all the others. Witnesses: `c44_disproved`.
* **C45** Community round trip. Source AS communities read back as Route Target (c45_sourceAs_disproved); all others round-trip. Witnesses: `c45_sourceAs_disproved`.
* **C46** BGP-LS NLRI survive a write/read round trip and malformed ones never crash the reader. Round trip holds. No panic holds for NLRI at offset 2 or later, as in any message; a reserved NLRI type in the first octets of a buffer underflows an offset (c46_fault_disproved). Witnesses: `c46_fault_disproved`.
* **C47** BGP-LS attribute TLVs survive a write/read round trip and malformed ones never crash the reader. False of four TLV kinds: link protection (one octet short), OSPF forwarding address (one octet long), route tags and extended route tags (never read back); all other kinds round-trip and no input panics. Witnesses: `c47_linkProtection_disproved`, `c47_forwarding_disproved`, `c47_routeTag_disproved`, `c47_extRouteTag_disproved`.
* **C49** Every path attribute survives a write/read round trip. Holds for attributes whose value fits the length field of their flags, without MP_REACH_NLRI of an unknown family (length one too large, c49_unknown_reach_disproved), an IPv4 next hop with a link-local address (c49_hop_disproved), empty or over-long AS path segments (c49_segment_disproved); a value over 255 octets without the extended-length flag is written with a wrong length (c49_long_disproved). Element restrictions as in C42, C45, C46, C47. Witnesses: `c49_long_disproved`, `c49_unknown_reach_disproved`, `c49_hop_disproved`, `c49_segment_disproved`.
* **C50** No path attribute crashes the decoder. Holds for at most 7 (VPN) or 10 (labeled unicast) negotiated labels; beyond that a u8 computation overflows (c50_disproved). Witnesses: `c50_disproved`.
* **C54** No BGP message crashes the decoder. Holds for at most 7 (VPN) or 10 (labeled unicast) negotiated labels; beyond that a u8 computation overflows (c54_disproved). Witnesses: `c54_disproved`.
* **C55** A malformed capability costs only itself. False: reading resumes inside the malformed capability (c55_disproved); capabilities before the first malformed one are kept. Witnesses: `c55_disproved`.
* **C56** A malformed path attribute costs only itself. False: an attribute with wrong flags takes the next attribute with it (c56_flags_disproved) or fails the message (c56_last_disproved). Holds when every malformed attribute is one that is skipped exactly, which is proved of ORIGIN with an undefined value and of AS_PATH starting with an undefined segment type. Witnesses: `c56_flags_disproved`, `c56_last_disproved`.
* **C57** A stopped peer is down. Holds unless the stop command is dropped while its NOTIFICATION is being written (c57_disproved). Witnesses: `c57_disproved`.
* **C58** Nothing a neighbour does ends the task of a peer. Holds while there is no second connection and writes succeed; an OPEN on a second connection (c58_disproved) or a failing write (c58_write_disproved) ends the task. Witnesses: `c58_disproved`, `c58_write_disproved`.
* **C59** Every UPDATE received in Established is reported. Holds without a second connection; with one an UPDATE can get lost (c59_disproved). Witnesses: `c59_disproved`.
* **C60** A resolved collision leaves a working session. One connection is left and the states agree; but the OPEN that revealed the collision can be lost, so the handshake fails (c60_disproved). Witnesses: `c60_disproved`.
* **C61** The OPEN carries what is configured. Everything but the last clause is proved, for users that do not themselves hand OPEN messages to the peer; capabilities repeated by the neighbour are repeated (c61_disproved). Witnesses: `c61_disproved`.
* **C62** A malformed message is answered with its NOTIFICATION. Holds for header and OPEN errors in OpenSent and OpenConfirm when the NOTIFICATION can be written; in Established no NOTIFICATION is sent (c62_disproved). Witnesses: `c62_disproved`.
* **C65** Messages of the user are sent in Established only. Sent on the session, and dropped once stopped; but sent in every other state with a connection too (c65_disproved). Witnesses: `c65_disproved`.
* **C66** Asking for statistics does not disturb a peer. Holds while the peer only waits; a connection attempt under way is lost (c66_disproved). Witnesses: `c66_disproved`.
* **C67** Incoming connections are accepted while there is room. Holds while no second connection is there; one that has ended still counts (c67_disproved). Witnesses: `c67_disproved`.
* **C68** BMP messages are read back as written. Holds of every message whose parts fit their fields, except of values that the wire cannot tell from none: time 0, address 0.0.0.0 or ::, route distinguisher 0:0 (c68_absent_disproved), and of raw octets in route mirroring, which are written but not read (c68_raw_disproved). Witnesses: `c68_absent_disproved`, `c68_raw_disproved`.
* **C69** No BMP octets make the decoder panic. False: eight labels, agreed in a Peer Up (c69_negotiated_disproved) or announced in a v4 route monitoring message (c69_stateless_disproved, one message is enough), overflow a u8. Proved for at most seven labels of VPN and ten of labelled routes. Witnesses: `c69_negotiated_disproved`, `c69_stateless_disproved`.
* **C70** Decoding BMP is a function of the stream. False when a Peer Up has two label counts for one family on both sides: the count that is used is the last one iterated from a hash set, and the same octets withdraw 10.0.0.0/8 in one run and 0.3.1.10/32 in another (c70_disproved). Proved without such Peer Ups. Witnesses: `c70_disproved`.
* **C72** No octets of a BMP message are ignored. Proved for Initiation, Termination and experimental messages. False for v4 route monitoring: of several BGP message TLVs all but one are skipped (c72_pdu_disproved), and so is what follows the BGP message in its TLV (c72_trailing_disproved). Witnesses: `c72_pdu_disproved`, `c72_trailing_disproved`.
* **C74** A Peer Up that does not carry OPENs is rejected with the offending message type. Holds of the first message; if the second is wrong the error has the type of the first (c74_disproved). Witnesses: `c74_disproved`.
* **C75** Flow field values mean what their octets stand for. Proved for fixed lengths, except booleans of 2, TCP flags beyond eight bits, reduced 256-bit integers, negative milliseconds and micro- and nanoseconds, and for variable contents below 255 octets. False for the rest: see the two disproofs. Witnesses: `c75_disproved`, `c75_length_disproved`.
* **C76** Flow field values survive being written. Proved for values that fit their length, and for decoded fields of the kinds in Flow.Kept. False for micro- and nanoseconds, variable-length lists and elements of unknown vendors, and for values of the caller that do not fit, which are altered instead of refused (disproofs). Witnesses: `c76_disproved`, `c76_values_disproved`, `c76_length_disproved`.
* **C77** IPFIX messages are read back as written. Proved for messages in whole seconds with valid templates and data that fits them, if the sender knows the templates with reduced lengths. False for a sender that only writes them, for records without fields and for fractions of a second (c77_disproved). Witnesses: `c77_disproved`.
* **C78** NetFlow v9 packets are read back as written. Proved for packets in whole seconds with non-empty sets, valid templates and data that fits them. False for empty sets and, if something follows, for several templates in a set (c78_disproved). Witnesses: `c78_disproved`.
* **C79** Aligned NetFlow sets end on a multiple of four octets. Proved for sets of templates and for data of even length. False for odd lengths, and for padding as long as a record (c79_disproved). Witnesses: `c79_disproved`.
* **C80** The record count of a NetFlow header is the number of records. Proved: the header bounds the records of data plus the sets of templates, and they are fewer only if the octets run out. Equality is false (c80_disproved). Witnesses: `c80_disproved`.
* **C81** Flow messages come out of a stream however it is cut. Proved for streams of IPFIX messages framed by their own length, with any content. False if octets of an unknown version come in between (c81_disproved). Witnesses: `c81_disproved`.
* **C82** Flow protocols and observation domains do not influence each other. Proved for the two protocols and all sequences of datagrams. False for the observation domains of IPFIX, which share one map (c82_disproved). Witnesses: `c82_disproved`.
* **C83** Padding of flow sets is ignored. Proved for data sets. False for sets of templates, and octets behind the zeros of an IPFIX data set are ignored too (c83_disproved). Witnesses: `c83_disproved`.
* **C84** A withdrawn template is unknown. Proved: no records come out of data with a withdrawn id. It is not reported as unknown, and the withdrawal of all templates is an error (c84_disproved). Witnesses: `c84_disproved`.
* **C85** NETCONF messages in chunks are put together. Proved for all divisions whose last chunk has at least 5 octets, with XML as a parameter. False for a shorter last chunk at the end of the stream: the codec waits for 13 octets from the start of a chunk (c85_disproved). Witnesses: `c85_disproved`.
* **C86** NETCONF messages are read back as written. Proved for XML of 5 to 4294967295 octets. False for longer messages, which are written as one chunk that the decoder refuses (c86_disproved). Witnesses: `c86_disproved`.
* **C87** NETCONF messages come out however the stream is cut. Proved for all cuts that do not end a piece with less than the whole terminator behind the last chunk. False for those: the message is not delivered and the next one is an error (c87_disproved). Witnesses: `c87_disproved`.
* **C88** Only RFC 6242 framing is accepted. No panic and no loop in full. What is accepted is chunked as in RFC 6242 except that sizes may have a plus sign and leading zeros (c88_disproved). Witnesses: `c88_disproved`.
* **C89** Enrichment returns what was loaded and not ended. Fields are any type with decidable equality and a linear order; the order of the returned values is left open.
* **C90** Enrichment prefers higher weights and then more specific scopes. What is returned is characterised in full (c90_partial): the highest weight, then the domain before all domains, then the lexicographic order of the lists of fields. So a scope wins over those it extends at the end. False as documented for more specific scopes in general: a scope with a superset of the fields can lose (c90_disproved), and the same fields in another order are another scope (c90_order_disproved). Witnesses: `c90_disproved`, `c90_order_disproved`.
* **C92** An upsert can be undone. Proved if nothing of at most its weight was left for the scope and the elements of the upsert; in general the result is that of the deletion alone (c92_undo). False otherwise: what was replaced is not restored (c92_disproved). Witnesses: `c92_disproved`.
* **C95** Enriched packets keep their data. A failure to send to a closed channel is not modelled.
* **C96** Aggregation reports each group of flow records once. A packet that cannot be handed over within a second is dropped by the code; what is modelled are the packets it tries to send. Windows are one minute whatever the configured duration, which only moves their end (see C23), so groups are by minute.
* **C97** Aggregated fields mean what the operation says. Proved for numbers (sums modulo the type, exact if they fit), for least and greatest values without names, for bits of values of equal length, and independence of the order. False: sums wrap around, control bits are ordered by flag, octet arrays of different lengths lose bits, of lists and unknown elements the first value is reported (c97_disproved). Sums of floating point numbers are a parameter. Witnesses: `c97_disproved`.
* **C98** An accepted aggregation can be carried out. False of lists and unknown elements, for which operations are accepted that are never carried out, and of booleans and MAC addresses, for which comparison is refused (c98_disproved). Witnesses: `c98_disproved`.
* **C100** Stopping the aggregation loses nothing received. What is sent is complete. False otherwise: records in windows that are open when the command arrives are not reported (c100_disproved). Witnesses: `c100_disproved`.
* **C101** Counters of sampled flows are multiplied by the sampling ratio. Proved: the result is the product but for one part in 2^51, rounded down; exact for whole ratios with a result below 2^53; and below 2^51 the product rounded down or, where it is a whole number, possibly one less. Floating point arithmetic is modelled (round to nearest even, 53 digits, infinity and NaN), not assumed. False in full: 7 packets of a sample of 7 out of 61 become 60, and counters above 2^53 change although nothing was sampled (c101_disproved). Witnesses: `c101_disproved`.
* **C102** Renormalization loses no traffic. Records that tell no ratio are left alone, and with a ratio of at least one no counter below 2^53 becomes smaller. False: an interval of 0 in samplingInterval or samplerRandomInterval, which exporters send for no sampling, sets all counters to 0, and a sample larger than its population is used (c102_disproved). Witnesses: `c102_disproved`.
* **C105** A record is renormalized once. False: the mark is not looked at, so each pass scales the counters again and adds another mark (c105_again_partial, c105_disproved). A record is left alone exactly if it has no counters or tells no ratio. Witnesses: `c105_disproved`.
* **C106** Option records become updates of what is known about the exporter. Up to the order of the fields in an operation, which is that of a hash map.
* **C107** What an exporter announces is added to its flows. Proved for scopes and announcements in which no element occurs twice. False otherwise: names for two different interfaces are dropped; a record that also tells of sampling does not name the interface of flows; sampling announced for the observation domain (observationDomainId as scope) reaches no flow; and with an element twice in the scope the order of a hash map decides (c107_disproved). Witnesses: `c107_disproved`.
* **C108** Option records of NetFlow v9 have the effect of those of IPFIX. NetFlow records have the effect of IPFIX records with the translated scope, and names of interfaces are known for both ways. False for other information: what is told for an interface, as its sampling, is known only for flows that both come in and go out through it (c108_disproved). Witnesses: `c108_disproved`.
* **C110** Announced sampling is applied to the counters of flows. Proved for samplingInterval if nothing else about sampling is known for the record and the products are below 2^53. False: sampling by time and sampling announced for the observation domain have no effect (c110_disproved). Witnesses: `c110_disproved`.
* **C111** Nothing is enriched from lines that are gone. For configurations in which each path occurs once. Operations are taken to reach the cache.
* **C112** What the files say is known. Proved as long as different lines are never about the same element of the same exporter and scope at the same time. False otherwise: a line that is moved to another file, which is noticed first, is lost when it is removed from the old file (c112_known_disproved). Witnesses: `c112_known_disproved`.
* **C114** Identifiers of pmacct maps reach the flows. For lines that are never about the same at the same time, as C112, and as far as no other source has to do with the element for the exporter.
* **C115** Flows are not enriched from nodes that left the inventory. Operations are taken to reach the cache. How JSON is read is left out.
* **C116** Nodes of the inventory are known. Proved if no two nodes of the inventory have the same address at the same time. False otherwise: if a node is inserted with the address of another one that is deleted afterwards, nothing is known of it although it is in the inventory (c116_known_disproved). Witnesses: `c116_known_disproved`.
* **C117** YANG push messages have the labels of their peer. Serializing the payload again is taken to succeed.
* **C118** YANG push messages tell their subscription. False for the transport and the encoding: messages of a subscription with CBOR say that it is encoded as JSON (c118_metadata_disproved). Proved for all else, and for filters if only one of the stream and the datastore has one of each kind. Witnesses: `c118_metadata_disproved`.
* **C119** The inventory labels YANG push messages. Nothing stale is proved. That nodes are known is proved if no two have the same address at the same time and no other source has to do with the address, and false otherwise, as C116 (c119_known_disproved). Witnesses: `c119_known_disproved`.
* **C120** A notification with a content identifier is valid. Decoding, loading schemas and validating are parameters.
* **C121** A notification is forwarded at most once. Packets that cannot be decoded are not counted.
* **C122** No notification is lost silently. Proved if subscriptions are always described in the same way and started before they are updated. False otherwise: an update that is held when its subscription is started, and a start that is held when its subscription is modified, are lost without a warning (c122_lost_disproved). Witnesses: `c122_lost_disproved`.
* **C123** Notifications wait for their schemas and keep their order. False: only the first notification is held. Those after it are forwarded at once without being validated and so overtake it (c123_order_disproved). Proved: with a packet only its notification is forwarded, and with a response at most one, of its subscription. Witnesses: `c123_order_disproved`.
* **C124** What is held is limited. False by one, and subscriptions of a peer are remembered and looked up beyond the limit (c124_limits_disproved). Proved with one packet more than the limits. Witnesses: `c124_limits_disproved`.
* **C125** Peers do not interfere. Proved for peers with different addresses. False for publishers with the same address, whose subscriptions have the same numbers: the notification of one is dropped by the schemas of the other (c125_publishers_disproved). Witnesses: `c125_publishers_disproved`.
* **C126** Notifications are forwarded with where they came from. Proved for the address and the subscription, and for the port of notifications that start or modify a subscription. False for the port of others, which is that of the start (c126_source_disproved). Witnesses: `c126_source_disproved`.
* **C127** Schemas are looked up once. Proved if subscriptions are always described in the same way and with their modules. False for a start that does not name its modules: it is looked up again with each response, without end (c127_lookups_disproved). Witnesses: `c127_lookups_disproved`.
* **C128** A response lets notifications out. Proved for notifications other than those that start or modify a subscription without naming its modules. Those are never forwarded, in any history (c128_released_disproved). Witnesses: `c128_released_disproved`.
* **C129** A restart does not lose YANG libraries. Proved if no description is given another library while it has one, and all modules and submodules of libraries have schemas and revisions, the same wherever they are listed, while modules that are imported only have no submodules; by number if each has one description and libraries are not removed by content identifier. False for a library with a module that has no revision: the collector cannot be started again (c129_restart_disproved); and for a description that is given another library: the order of directories decides (c129_moved_disproved). Witnesses: `c129_restart_disproved`, `c129_moved_disproved`.
* **C130** What is found for a description was put for it last. What is found was put for that description, always; that it was put last is proved if no description is given another library while it has one. False otherwise: a library that is there already is not given to a description that has another (c130_found_disproved). Witnesses: `c130_found_disproved`.
* **C131** What is found for a subscription number is its description. Proved if each number has one description, which is not given another library while it has one, and libraries are not removed by content identifier. False for a number that is described in turns (c131_number_disproved). Witnesses: `c131_number_disproved`.
* **C132** Removing a library removes that library. Proved for lookups by content identifier and by description, and for the disk. False for lookups by number, which are removed by another content identifier (c132_dropped_disproved). Witnesses: `c132_dropped_disproved`.
* **C133** Removing a description removes that description. Proved for lookups by description and by content identifier, and for the disk. False for lookups by number: a newer description of the number is forgotten (c133_removed_disproved). Witnesses: `c133_removed_disproved`.
* **C134** Every lookup of a YANG library is answered. At most one answer for each lookup, always; exactly one is proved if no worker panics, workers are started in time, and one who asks neither uses a one-shot channel by number nor closes its own. False otherwise: after a panic nobody who asks for that subscription is ever answered (c134_answered_disproved); one-shot lookups by number are not answered unless the library is there, nor those whose worker is not started in time (c134_once_disproved). Witnesses: `c134_answered_disproved`, `c134_once_disproved`.
* **C135** A YANG library is fetched once. Proved if nobody is removed as closed, one-shot lookups do not fail, and for workers other than those of one-shot lookups; that nothing is fetched again after an answer with a library is proved in general. False otherwise (c135_once_disproved, c135_oneShot_disproved). Witnesses: `c135_once_disproved`, `c135_oneShot_disproved`.
* **C136** Answers fit what is looked up. For workers that bring what they were asked for, as those of the collector do.
* **C137** Notifications are validated with the library of their subscription. For workers that bring what they were asked for, as those of the collector do. Loading schemas and validity are parameters.
* **C138** Loading of a YANG library ends. For libraries where modules that are imported only are listed by their names, as those that are read from devices are. What devices answer and what schemas depend on are parameters.
* **C139** What is loaded of a YANG library is what is needed. Imports that the library of the device does not list are left out, as are all but one revision of modules that are imported only.
* **C140** Loading of a YANG library succeeds. Proved for modules that include exactly the submodules listed with them, while modules that are imported only have none. False for modules that are imported only and have submodules, which makes the worker panic (c140_imported_disproved), and for submodules that are included by submodules only (c140_nested_disproved). Witnesses: `c140_imported_disproved`, `c140_nested_disproved`.
* **C141** Content identifiers tell YANG libraries apart. Proved for libraries that differ in one schema, for digests that tell all texts apart. False for two schemas (c141_schemas_disproved) and for features (c141_features_disproved), as texts are hashed without anything between them. Witnesses: `c141_schemas_disproved`, `c141_features_disproved`.
* **C142** A YANG library can be extended with another. Proved for libraries that list all once, where modules of both that are imported only have the same revision and those of both with the same schema list the same submodules. False if a module that is imported only has another revision (c142_revision_disproved), or two (c142_revisions_disproved). Witnesses: `c142_revision_disproved`, `c142_revisions_disproved`.
* **C143** Reading of YANG schemas ends. Proved for metadata of all texts, and for dependencies of texts without the keywords import and include; those of C145 end as well. False for dependencies of texts that end within an import or include (c143_cut_disproved) and of valid modules with a string in an import that ends with a backslash (c143_backslash_disproved). Witnesses: `c143_cut_disproved`, `c143_backslash_disproved`.
* **C144** Reading of YANG schemas does not panic. Proved for texts in ASCII; those of C145 and C146 may have other characters in strings and comments. False for texts with a byte order mark (c144_mark_disproved), those that end in a comment after a character of several bytes (c144_comment_disproved) and those with a no-break space after a word (c144_space_disproved). Witnesses: `c144_mark_disproved`, `c144_comment_disproved`, `c144_space_disproved`.
* **C145** The dependencies of YANG schemas are read as they are written. Proved for modules as in the grammar of Yang/Spec: comments anywhere, all kinds of strings, nested statements. Missing are modules with the keywords looked for as arguments without quotes, for which it is false (c145_keyword_disproved), and strings in imports and includes that end with backslashes. Witnesses: `c145_keyword_disproved`.
* **C146** The metadata of YANG schemas is read as it is written. Proved for modules as in the grammar of Yang/Spec, and submodules without imports but for their prefixes. False for the prefixes of submodules (c146_submodule_disproved). Witnesses: `c146_submodule_disproved`.
* **C147** All schemas of a YANG library are registered, with their references. For any order of nodes that is as the contract of petgraph says.
* **C149** Libraries with all their schemas are registered. Proved for libraries with one set of modules whose schemas do not need each other in a circle. False if a module that is imported only includes a submodule (c149_imported_disproved). Witnesses: `c149_imported_disproved`.
* **C150** Registering of YANG libraries ends. Proved if no submodule includes itself, directly or not. False if submodules include each other (c150_circle_disproved): the recursion has no end. Witnesses: `c150_circle_disproved`.
* **C151** Registering of YANG libraries does not panic. Proved if there is a schema for all that is listed and the registry gives identifiers. False without a schema of a submodule (c151_text_disproved). Witnesses: `c151_text_disproved`.
* **C152** References have the versions of the registry. Proved for registries that answer with subjects and versions. False for those that do not, if they refuse a schema first (c152_relaxed_disproved): then the reference has no subject and version 0. Witnesses: `c152_relaxed_disproved`.
* **C153** No schema refers to itself. Proved if something refers to the root. False otherwise (c153_root_disproved): the root then refers to itself. Witnesses: `c153_root_disproved`.
* **C159** Publishing as Avro reports errors only if there are some. Proved for messages with values. False for messages that are converted to no values (c159_empty_disproved): an error is reported though nothing failed. Witnesses: `c159_empty_disproved`.
* **C160** Messages are published to Kafka with the identifiers of their schemas. For caches that answer for the content identifier they are asked for, as the cache of the collector does.
* **C161** Schemas are registered once for a content identifier. For caches that answer for the content identifier they are asked for.
* **C162** Messages published to Kafka as YANG are accounted for. Proved but for messages whose schema can not be asked for or registered. These are counted as received only (c162_lost_disproved), and are not sent though there may be a default schema. Witnesses: `c162_lost_disproved`.
* **C163** Publishers to Kafka flush their queue before they end. Proved for shutdown. False if the messages end (c163_closed_disproved). Witnesses: `c163_closed_disproved`.
* **C165** All messages are posted to HTTP. Proved but for the last messages, no more than the minimum of a batch, if the server replies to all. These are dropped on shutdown (c165_shutdown_disproved), and a request that fails ends the publisher (c165_failure_disproved). Witnesses: `c165_shutdown_disproved`, `c165_failure_disproved`.
* **C166** Messages posted to HTTP are counted. Proved for batches as they are: those with any reply are counted as sent, those without as one failure. False for replies with an error status (c166_status_disproved) and for batches that fail (c166_failed_disproved). Witnesses: `c166_status_disproved`, `c166_failed_disproved`.
* **C169** Datagrams are accounted for. Proved but for datagrams that are not decoded: those that are cut short are counted as received only (c169_disproved). Witnesses: `c169_disproved`.
* **C171** Nothing that peers send ends a collector of datagrams. Proved for flows. False for UDP-notif: a datagram that is cut short and then one of one octet from the same peer end the actor for all peers (c171_disproved). Only a datagram of one octet from a peer that was heard of before does so (c171_partial). Witnesses: `c171_disproved`.
* **C174** Purged peers are forgotten. Proved for peers purged by their address. False for those purged because they are unused, which stay listed and keep their templates (c174_disproved). Witnesses: `c174_disproved`.
* **C175** Silent peers are purged. Proved for peers of which something was decoded before the first purge. False for others, which are never reported (c175_never, c175_disproved). Witnesses: `c175_disproved`.
* **C177** Subscribing to a supervisor is undone by unsubscribing. Proved but for the last part: the answer names actors that never had the subscription (c177_disproved). Witnesses: `c177_disproved`.
* **C178** A supervisor that can not bind sockets says so. Proved for flows, and for UDP-notif if a socket can be bound; otherwise the task of its supervisor panics (c178_disproved). Witnesses: `c178_disproved`.
* **C181** Subscribing to open connections of BMP takes effect. Proved for a connection that has taken the updates that wait, of which there are at most 17. False without: tasks may take a message before an update that waits (c181_disproved). Witnesses: `c181_disproved`.
* **C182** Open connections of BMP are listed. Proved when no peer comes back from the same address and port; that only open connections are listed when no notice waits or was lost and no subscription is without channels. False when a peer comes back before the notice of its earlier connection is taken: the notice takes the new connection off the list (c182_disproved). Witnesses: `c182_disproved`.
* **C183** Disconnecting ends a connection of BMP. Proved when no peer comes back from the same address and port. False when it does: the connection that was taken off the list is neither disconnected nor shut down (c183_disproved). Witnesses: `c183_disproved`.
* **C186** Subscribers do not end connections of BMP. Proved for subscriptions with at least one channel. A subscription without ends each connection at its next message, by a division by zero, and the connection stays listed (c186_disproved). Witnesses: `c186_disproved`.
* **C187** Signals of the BMP server are heard. Proved if nobody is between looking at the flag and starting to wait when waiters are woken. False otherwise: who is waits forever, and later calls do not wake it (c187_disproved). Witnesses: `c187_disproved`.
* **C188** The service of a BMP server is asked about all that arrives. One message is dropped, and the connection ends, if the service is not ready for it.
* **C190** No connection is served when the BMP server has returned. Proved when accepting does not fail, no connection is taken after a graceful shutdown is asked for and none is just ending when it is. False otherwise in each of the three cases (c190_disproved). Witnesses: `c190_disproved`.
* **C191** Shutting down ends the BMP server and its connections. Proved if nobody is between looking at the flag and starting to wait when waiters are woken; it takes a turn of serve and of the worker. False otherwise (c191_disproved). Witnesses: `c191_disproved`.
* **C192** Shutting down gracefully ends the BMP server. Proved if serve is not between looking at a flag and starting to wait when waiters are woken. False otherwise: without a limit of time it waits forever (c192_disproved). Witnesses: `c192_disproved`.
* **C193** Packets of a capture come out once, in order, with the numbers of their frames. The blocks of a capture are what pcap-parser returns. When a block makes reading panic, what comes before is as said (c193_first_panic); whether one does is C196.
* **C194** TCP segments and UDP datagrams are read exactly. For frames without padding (C195). The headers are written from their RFCs; pcap-parser and pdu are assumed to read such headers as they should (Lib.Faithful), which a reference library meets (Pcap/RefLib).
* **C195** Padding of frames is not payload. Proved for UDP over IPv4, whose length is used. False for TCP, and for UDP over IPv6, for any padding: it is read as payload (c195_disproved). Witnesses: `c195_disproved`.
* **C196** Reading a capture does not panic. Proved for captures without simple packet blocks and reading errors, whose frames refer to interfaces that were described and carry neither GRE nor ESP nor UDP that is cut short. False otherwise (c196_disproved, c196_disproved_cut; c196_disproved_length for a library that hands on datagrams whose length is below 8). Witnesses: `c196_disproved`, `c196_disproved_cut`, `c196_disproved_length`.
* **C197** Frames are read with the link type of their interface. Proved for captures of one section. False for several: interfaces of a later section are looked up among those of the first (c197_disproved). Witnesses: `c197_disproved`.
* **C198** Decoding a capture ends. Proved for BGP and flow. BMP never loops, but one message makes it panic (c198_bmp_disproved); UDP-notif is proved for datagrams of two octets or more whose payloads can be read, and false otherwise (c198_notif_disproved, C204). Witnesses: `c198_bmp_disproved`, `c198_notif_disproved`.
* **C199** Messages of a TCP flow do not depend on its segments. Proved for segments that are captured once and in order, for BMP when the run does not panic (C198). False for segments that are sent again or out of order: sequence numbers are not looked at (c199_disproved, c199_disproved_order). Witnesses: `c199_disproved`, `c199_disproved_order`.
* **C200** Flows of a capture do not influence each other. Proved for BGP and flow, and for any handler when the run ends. False for UDP-notif when one sender makes it panic (c200_disproved). Witnesses: `c200_disproved`.
* **C201** Datagrams are decoded on their own. Proved when no datagram leaves octets behind that wait for more. False otherwise: a datagram that is cut is put in front of the next one (c201_disproved). Witnesses: `c201_disproved`.
* **C202** The limit of frames and their numbers are right. What is written and its numbers are proved for every handler. How the run ends depends on frames behind the limit: a GRE packet there makes it panic (c202_disproved). Witnesses: `c202_disproved`.
* **C203** A malformed message in a capture costs only itself. Proved: the error is the last result of its packet and the next packet starts anew. False for messages of the same segment, which are lost (c203_disproved). Witnesses: `c203_disproved`.
* **C204** A payload that cannot be read does not stop the decoding of UDP-notif. Proved when all payloads can be read and no option is unknown: a line for each result, in order. False otherwise: the run panics and the rest is lost (c204_disproved, c204_disproved_option). What JSON, XML and CBOR are is a parameter; that serde_json refuses keys that are newtype variants is an assumption. Witnesses: `c204_disproved`, `c204_disproved_option`.
* **C205** Decoded BGP messages are written as such. Proved for the first message of a flow and for messages directly behind another message. False behind a malformed message: the record of its errors is held against the next one, which is replaced by a notice (c205_disproved). Witnesses: `c205_disproved`.
* **C206** Text that is written into a NETCONF message is the text that is read. Proved for the text of any element as it is written and read by the functions for texts, and for the URL of an edit-config in a whole request. The lexer of quick-xml is modelled by what it gives for escaped text.
* **C207** Text of an element is read as XML says. Proved for content whose references are to the five predefined entities. False for references to characters, which are read as their code, and to entities that are not declared. Witnesses: `c207_character_references_disproved`, `c207_undeclared_references_disproved`.
* **C208** Reading a NETCONF message ends. Proved for documents, well formed or not, with a closing tag behind each opening tag and attributes in UTF-8; with the reading of the YANG library that the code has, no more is asked. False otherwise: a document that is cut in the text of an element makes reading loop forever, and an attribute that is not UTF-8 in copied content makes it panic. Witnesses: `c208_truncated_disproved`, `c208_attribute_disproved`.
* **C209** A request that is written is read back. Proved for every operation but one, under conditions on its texts and content. False for the request of the YANG library, message-ids with line ends, and identifiers with spaces around them. Witnesses: `c209_yang_library_disproved`, `c209_message_id_disproved`, `c209_identifier_disproved`.
* **C210** A reply that is written is read back. Proved under conditions on texts of errors and content. False for texts of errors with ampersands, and for details of an error that are merged. What is written and read of the YANG library is a parameter. Witnesses: `c210_error_message_disproved`, `c210_error_reference_disproved`, `c210_details_disproved`.
* **C211** A hello that is written is read back. Proved for capabilities whose parameters fit into their texts; reading and writing of dates is a parameter. False for the capability of URLs without a scheme. Witnesses: `c211_no_scheme_disproved`.
* **C212** Configuration of a request arrives whole. Proved for content without an element named config. False for content with one: the rest is lost without an error. Witnesses: `c212_nested_config_disproved`.
* **C213** A reply without data is read as one. Proved for an opening and a closing tag. False for an empty tag. Witnesses: `c213_empty_tag_disproved`.
* **C214** Content keeps the namespaces of its names. Proved for one element without prefixes, as content of a request of another kind. False for prefixes that are bound around the content, and for more than one element. Witnesses: `c214_prefix_disproved`, `c214_sibling_disproved`.
* **C215** The text of a YANG schema is delivered exactly. Proved for texts without ampersands. False for those with entities: they are decoded twice. Witnesses: `c215_entity_disproved`.
* **C216** A capability means the same when it is written again. Proved for texts without white space. False for white space in parameters or in front. Witnesses: `c216_white_space_disproved`, `c216_refused_disproved`.
* **C217** White space around a capability makes no difference. Proved for capabilities without parameters. False for those with parameters. Witnesses: `c217_url_disproved`, `c217_library_disproved`.
* **C218** A hello with capabilities that are not known is accepted. Proved for names without parameters. False for some with parameters: one of them makes the whole hello be refused. Witnesses: `c218_scheme_disproved`, `c218_parameter_disproved`.
* **C219** What is written is well formed. Proved for requests, hellos, YANG libraries, and replies with libraries, schemas, data or other content, whose errors have no markup in their texts. False for errors with markup. Witnesses: `c219_error_message_disproved`.
* **C220** Namespaces of one's own do not change messages. Proved for one more namespace and the request to close the session. False if the namespace of NETCONF gets a prefix, and for a prefix named message-id. Witnesses: `c220_prefix_disproved`, `c220_attribute_disproved`.
* **C221** YANG libraries are read back. Proved for all libraries made of parts whose texts have no white space at their ends and whose datastores of other modules have a namespace without characters that are written as references. False otherwise: white space at ends is lost, the namespace of a datastore is read back with its references, and a datastore without namespace cannot be read. Witnesses: `c221_white_space_disproved`, `c221_ampersand_disproved`, `c221_no_namespace_disproved`.
* **C223** Modules are read whatever the order of their leaves. Proved for leaves of other modules at the end of a module. False otherwise: modules behind modules to import only are lost, so are a revision behind the namespace and features behind leaves of other modules, and an unknown child of the library makes all of it unreadable. Witnesses: `c223_imports_first_disproved`, `c223_revision_late_disproved`, `c223_unknown_between_disproved`, `c223_unknown_child_disproved`.
* **C227** Requests of a session have different message identifiers. Numbers are natural numbers in the model and u32 in the code, so it holds for the first 4294957186 requests of a session.
* **C229** Errors of the server are reported. Holds of replies with errors and no data. False in general: errors beside data are dropped and the call succeeds. Witnesses: `c229_errors_dropped_disproved`.
* **C230** The YANG library is asked for once. False: the field of the client that should hold the library is never set, so each call asks again. Witnesses: `c230_asked_each_time_disproved`.
* **C231** Calls go on after a stray reply. Proved for servers that answer in turn. False otherwise: after one stray reply all calls of the session fail, since each takes the reply to the one before. Witnesses: `c231_stray_reply_disproved`.
* **C232** References to filters are resolved. Proved for filters of datastores. False for filters of streams: the reference stays, and fetching such a subscription fails. Witnesses: `c232_stream_reference_disproved`.
* **C233** What is fetched for a subscription is what it needs. What is found is always right, and is found in libraries that list all module sets that their schemas name. Otherwise a set that is named and not listed hides the modules of the sets after it. Witnesses: `c233_hidden_disproved`.
* **C234** Fetching is repeated as configured. Times are whole milliseconds in the model and floating-point numbers in the code.
* **C235** What is published of flows is of the schema that is published. Proved where elements that are published as they are have values of their data types, custom primitives are text, and one of them has a default. False otherwise: elements with names for their values, such as protocolIdentifier, are said to be numbers and published as text; times have a type that Avro does not know; custom primitives are missing in records that have none of them; and those that are numbers are accepted though the schema says text. That names are valid for Avro is not part of the claim. Witnesses: `c235_named_values_disproved`, `c235_times_disproved`, `c235_primitives_disproved`, `c235_primitive_numbers_disproved`.
* **C236** Accepted configurations convert all records. Proved where elements that are published as they are have values of their data types, and route distinguishers have eight octets. False otherwise: an unknown element that is published as it is is a panic, and a route distinguisher of another length as text is an error. Witnesses: `c236_unknown_disproved`, `c236_distinguisher_disproved`.
* **C238** Numbers are published with their values. Proved for numbers less than 2^63 of elements without names for their values. Counters from 2^63 are published as negative numbers. Witnesses: `c238_large_disproved`.
* **C239** Times as text keep their milliseconds. What is published is always the number of whole seconds; times that differ in their milliseconds have one text. Witnesses: `c239_millis_disproved`.
* **C240** Each data record is published, and fails, for itself. Proved for packets of which all records are converted. False otherwise: one record that fails loses the others of its packet. Witnesses: `c240_alone_disproved`.
* **C241** Maps keep all that is selected. Proved for elements whose key no other has. Two occurrences of an element have the same key, and the last replaces the first. Witnesses: `c241_occurrences_disproved`.
* **C242** Labels are published with their places. Proved for the entries of places 2 to 10 and mplsLabelStackSection, with the 24 bits of the entry. False otherwise: the number is that of the entry and not of the label, and mplsTopLabelStackSection is refused. Witnesses: `c242_number_disproved`, `c242_top_disproved`.
* **C243** AS paths are put together as RFC 6793 says. Proved for putting together the two paths. False for when it is to be done: AS4_PATH is used with an AS_PATH of four octets, and whatever AGGREGATOR has. Witnesses: `c243_four_octets_disproved`, `c243_aggregator_disproved`.
* **C244** AS paths can be read back from their text. For all paths, with sets.
* **C245** Each route of an update is published once. Proved for updates with at most one MP_REACH_NLRI and one MP_UNREACH_NLRI of families of prefixes, with the top label. False otherwise: of several such attributes all but the last are lost, of other families one message without route is published, and of a stack of labels the top one only. Witnesses: `c245_two_attributes_disproved`, `c245_other_families_disproved`, `c245_labels_disproved`.
* **C246** The end of a RIB is published as such. Proved for the families that are known. An empty MP_UNREACH_NLRI of a family that is not known is not published as the end of a RIB. Witnesses: `c246_unknown_family_disproved`.
* **C247** Routes are published with the attributes of their update. Proved that all messages of an update have its attributes, of each the last one. False for routes that are withdrawn, which have them too. Witnesses: `c247_withdrawals_disproved`.
* **C248** Each counter of a report is published. Proved for all counters that are known. The value of others is published as 0. Witnesses: `c248_unknown_disproved`.
* **C249** The table of a message is that of its peer. From the code of the type and the octet of flags as they are on the wire.
* **C250** Only messages that pmacct has no record of are refused. Proved exactly which messages are refused. Messages of peers without a time are among them, which RFC 7854 allows. Witnesses: `c250_no_time_disproved`.
* **C251** Times are published with six digits of microseconds. Proved for all times but leap seconds, which the parser accepts and which have seven digits. Witnesses: `c251_leap_disproved`.
* **C252** Route distinguishers can be told apart. For all route distinguishers of the four types.
* **C253** Communities can be read back from their text. Proved for communities and large communities. False for extended communities: those of AS numbers of two and of four octets are published alike, and some have blanks in their text. Well-known communities are published by name. Witnesses: `c253_extended_disproved`, `c253_blanks_disproved`, `c253_numbers_disproved`.
* **C254** No information element is lost. Proved which elements are published. Of several strings all but the last are lost. Witnesses: `c254_strings_disproved`.
* **C255** Messages are published with the record of their type and numbered. Proved for the record, its place and the fields of the context. All messages have the number 0. Witnesses: `c255_numbers_disproved`.
* **C256** Peers that come up or go down are published as they do. For headers with times; those without are refused, see C250.
* **C257** Connections go to the peer of their address. By induction on runs, over any number of sockets, peers and connections. Sending to a task fails if and only if the task has ended.
* **C258** Sockets are listened on independently. Proved for one socket. False for more: after a connection is accepted on one socket, none is on that socket until one has come in on all the others, because the set of futures is made anew only when it is empty. Witnesses: `c258_other_sockets_disproved`.
* **C259** Unknown addresses get nothing without a policy. By induction on runs.
* **C260** A dynamic peer can try again. Proved for the first connection. A dynamic peer that fails before OpenConfirm stays with the supervisor and is not known to the listener: all later connections from its address are dropped. Witnesses: `c260_again_disproved`.
* **C261** Peers do not hold each other up. False: while a dynamic peer is waited for, the listener accepts nothing, whatever comes in. Witnesses: `c261_held_up_disproved`.
* **C262** There is one peer per key, and those removed are stopped. Proved for keys, and for tasks that are not aborted. If what remove_peer returns is dropped, the task is aborted and may never take the message that stops it. Witnesses: `c262_removed_disproved`.
* **C263** Notifications are read back. For values that fit their types: numbers of their widths, fields that augment are objects with none of the names of fields, and of an old wrapper or subscription without notification or trigger they have no such member. Dates are any that can be read back.
* **C264** Notifications that are read are stable. Proved unless a trigger or a notification of an old wrapper is left over where none was read. An old wrapper with a notification that is refused and a good one is read without, and after it has been written it is read with the good one. Witnesses: `c264_again_disproved`.
* **C265** Nothing of a notification is lost. Proved for members that are not known, with the value that comes last. A notification of an old wrapper, or a trigger, that cannot be read is lost without an error; names of encodings and transports that are not known are lost too. Witnesses: `c265_keeps_disproved`.
* **C266** A notification that is carried is read or refused. Proved for wrappers; of old wrappers only that what is read is one of the members. An old wrapper whose notification is wrong is read without it, where the new one is refused. Witnesses: `c266_legacy_carries_disproved`.
* **C267** The order of members does not matter. Proved for wrappers, and for old ones with one notification at most. Of an old wrapper with two notifications the first is read. Witnesses: `c267_legacy_order_disproved`.
* **C269** Subscriptions that are fetched are told as they are. Proved for what is converted, and that this is exactly what is filtered by a path. Namespaces of prefixes of paths are dropped, so that paths to different nodes are told as the same; a subscription to a stream without filter is refused as one with a filter by reference of no name. Witnesses: `c269_converted_disproved`.
* **C270** Targets are what documents say. Proved for all members but one. The filter of a datastore by a subtree is read by a name without its module: by the one of RFC 8641 it is not part of the target. Witnesses: `c270_target_disproved`.
* **C271** Encodings do not matter. Proved for documents with each name once. With a name twice a document is refused in JSON and read in CBOR. The readers of octets are parameters. Witnesses: `c271_media_disproved`.
* **C272** Subscriptions are read back from XML. Proved for filters by name, by path or by subtree, and for whole seconds, one publisher at most, and lists that are absent or not empty. Of more publishers only the first has its namespace declared, and the others are lost; parts of seconds, identities that are not known, and empty lists are not read back. Subtrees have prefixed elements that declare nothing themselves (see C281). The clock is a parameter that writes and reads times. Witnesses: `c272_publishers_disproved`, `c272_time_disproved`, `c272_absent_disproved`.
* **C273** Children of a subscription that are not known do not matter. For subscriptions that C272 reads back; the elements are inserted anywhere between the children that are written.
* **C274** Terms of updates are read in any order and next to any others. Proved for any order and number of known terms. From the first element that is not known on, everything up to the end of the terms is lost without an error. Witnesses: `c274_lost_disproved`.
* **C275** Versions of modules are read with all their parts. Proved for the order of name, revision and version, with any other elements behind them. If the version comes before the revision, then the revision is lost without an error. Witnesses: `c275_order_disproved`.
* **C276** Transports and encodings are known by module and name. Only the name of an identity is looked at: an identity of any other module with the same name counts as the one that is known. Witnesses: `c276_namespace_disproved`.
* **C277** Filters with names are read in either order. Proved for filters of datastores, and for filters of streams behind their names. A filter of a stream before its name is refused, because the name is then expected in the namespace of YANG-Push. Witnesses: `c277_stream_disproved`.
* **C278** The order of the children of a subscription does not matter. For subscriptions that C272 reads back.
* **C279** Targets are exactly one. Documents without a number or a target, or with the name of a filter of a datastore but no datastore, are refused. A document with both a datastore and a stream is read as if there was no stream. Witnesses: `c279_both_disproved`.
* **C280** Prefixes of paths are kept with their namespaces. Proved for prefixes that are identifiers of ASCII, each of another namespace when they are written. Prefixes with other letters are not found, and of two prefixes of one namespace one is not written. Witnesses: `c280_letters_disproved`, `c280_twice_disproved`.
* **C281** Filters by subtree are kept with their namespaces. Proved for contents whose elements declare no namespaces themselves, that begin and end with elements, whose prefixes are all declared, and of which no element has the name of the filter; for reading back, all elements have prefixes, each of another namespace. A filter whose elements have no prefix is read, but then cannot be written in a subscription to a datastore, and is lost when written in one to a stream. Content with an element named as the filter, of any namespace, is cut off there without an error. Witnesses: `c281_bare_disproved`, `c281_nested_disproved`.
* **C282** Sets of filters are read by name. Proved for filters as they are written, name first, with paths and subtrees as in C272. A set without filters that comes as an empty tag, as servers without filters may send it, is refused, alone and within other elements. Witnesses: `c282_empty_disproved`.
* **C283** A subscription is got by its number. Proved for answers whose first subscription is the one of the number, as it would be written, with parts as in C272. False in general: the first subscription of the answer is taken whatever its number; anything in front of the subscriptions in the data makes the client fail; and so do filters that come as an empty tag, if the subscription refers to one. Witnesses: `c283_number_disproved`, `c283_no_filters_disproved`, `c283_before_disproved`.
* **C284** Texts of flow records are published as configured. For fields that select one element, and for arrays without a default. How values of elements are shown as text is a parameter.
* **C285** Enumerations of registries keep every number. Proved but for the variants of forwarding statuses, which go by the places of the entries in the registry: they are those of the first two bits if the entries are in order from zero without gaps, and others otherwise. The code that is generated is taken for the functions that it defines; with two variants of the same name it does not compile. Witnesses: `c285_status_disproved`.
* **C286** Numbers of registries are read in every form. Proved but for a single zero before b, which is taken for the form with 0b in front, without digits, so that the entry is passed over. Witnesses: `c286_zero_disproved`.
* **C287** Names of registries become names of variants. Proved for names with a letter or digit before the first colon. Names without one become empty, for which no code can be generated, and names that differ in punctuation or white space only, or behind a colon, become the same, so that the code does not compile. Witnesses: `c287_empty_disproved`, `c287_same_disproved`.
* **C288** Records of registries become entries. What becomes of links in descriptions is a parameter. That reserved entries are told apart is part of the name, which is otherwise as in C287.
* **C289** Descriptions of elements keep their paragraphs. Proved that all parts are there in their order. Paragraphs are put together without a line or a space between them, because the flag of the first one is never cleared. Witnesses: `c289_paragraphs_disproved`.
* **C290** Records of registries become elements. What becomes of links in descriptions is a parameter; descriptions are as in C289.
* **C291** Elements get the registries of their values. If an entry of forwarding has no registry of reasons then the code generator panics, which is none in the model.
* **C292** Operations from Kafka reach every enrichment actor. What the client of Kafka gives after a reconnection is in the list of events: messages that it loses or gives again are not the concern of the actor.
* **C293** The consumer of Kafka tries for a bounded time and counts what is lost. Proved but for commands: while brokers are down, or after a fatal error, the actor sleeps and reconnects in a loop that does not look at commands, so that it cannot be stopped until it has succeeded. Witnesses: `c293_command_disproved`.
* **C294** Replies of all BMP actors reach the caller. Proved for subscriptions, removals and disconnections, whose replies wait for room. Local addresses and connected peers are sent only if there is room: with more actors than the buffer of commands has places the lists can lack all that are too many, without an error. Witnesses: `c294_lists_disproved`.
* **C295** Commands to the supervisor of BMP actors act on all actors. Proved but for what unsubscribing reports: the supervisor takes any answer of an actor as success, so that an actor is reported also if it had no such subscription. Witnesses: `c295_reported_disproved`.
* **C296** Each configured endpoint of the collector publishes. Proved but for endpoints for enriched flows of a group without aggregation: their publishers are only made together with an aggregation, so that nothing is published, and there is no error. Witnesses: `c296_publishes_disproved`.
* **C297** Each endpoint of a group gets all messages. Proved for groups with one endpoint. Endpoints of a group read clones of one receiver of async_channel, which gives each message to one of them only: with two endpoints each misses what the other gets. Witnesses: `c297_all_disproved`.
* **C298** Enrichment stays within a group and reaches all its actors. Enrichment actors of the first endpoints of a group get operations from the inputs of later endpoints of the group again.
* **C299** A collection goes on while its parts run. Proved for flows and BMP with an endpoint that publishes, and for notifications with an endpoint for telemetry. A collection of notifications with endpoints for raw messages only waits for an empty set of validations, which is ready at once, so that it ends with success as soon as it has started; so does one for enriched flows without aggregation and inputs. Witnesses: `c299_raw_disproved`, `c299_enriched_disproved`.
* **C300** JSON records tell peer, writer and payload. Proved for raw notifications. Records of raw flows and of BMP messages do not tell the writer, although it is configured for their endpoints; those of enriched flows and of telemetry have it from enrichment. Witnesses: `c300_writer_disproved`.
* **C301** The collector exits as its collections do and stops them. Proved but for the last sentence: when it is interrupted, or when one collection fails, the collector leaves its loop without telling the actors of collections that run to stop, although it logs that it does; what their publishers have queued can be lost. That a task is dropped with the runtime is not modelled. Witnesses: `c301_interrupt_disproved`, `c301_others_disproved`.
* **C302** A collection that ends tells its actors to stop. Proved if a task has ended, and for BMP. If the supervisor of flows or of notifications has ended only publishers are told: actors before them, inputs and the cache of schemas are not, and see at most that their channels of commands are closed. Witnesses: `c302_supervisor_disproved`.
