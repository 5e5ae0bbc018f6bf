{
 "claims": [
  {
   "property": "C01",
   "status": "proved",
   "theorems": [
    "Verif.Props.c01_op_meets_spec",
    "Verif.Props.c01_values",
    "Verif.Props.c01_int_values",
    "Verif.Props.c01_history",
    "Verif.Props.c01_conservation",
    "Verif.Props.c01_view",
    "Verif.Props.c01_subview"
   ],
   "note": ""
  },
  {
   "property": "C02",
   "status": "proved",
   "theorems": [
    "Verif.Props.c02_unsigned32",
    "Verif.Props.c02_unsigned64",
    "Verif.Props.c02_signed32",
    "Verif.Props.c02_signed64",
    "Verif.Props.c02_reject"
   ],
   "note": ""
  },
  {
   "property": "C03",
   "status": "proved",
   "theorems": [
    "Verif.Props.c03_accept",
    "Verif.Props.c03_reject",
    "Verif.Props.c03_roundtrip",
    "Verif.Props.c03_roundtrip_canonical"
   ],
   "note": ""
  },
  {
   "property": "C04",
   "status": "partial",
   "theorems": [
    "Verif.Props.c04_roundtrip_partial",
    "Verif.Props.c04_accept_partial",
    "Verif.Props.c04_len_wrong",
    "Verif.Props.c04_len_disproved"
   ],
   "note": "Round trip and acceptance hold; the len() part is false: it omits the tag octet (c04_len_disproved)."
  },
  {
   "property": "C05",
   "status": "proved",
   "theorems": [
    "Verif.Props.c05_framing",
    "Verif.Props.c05_bodies"
   ],
   "note": ""
  },
  {
   "property": "C06",
   "status": "proved",
   "theorems": [
    "Verif.Props.c06_roundtrip",
    "Verif.Props.c06_stream"
   ],
   "note": ""
  },
  {
   "property": "C07",
   "status": "partial",
   "theorems": [
    "Verif.Props.c07_len_partial",
    "Verif.Props.c07_open_refused_partial",
    "Verif.Props.c07_truncated_disproved",
    "Verif.Props.c07_parameters_disproved",
    "Verif.Props.c07_labels_disproved"
   ],
   "note": "len(), the header length and the octets written agree for well-formed messages, and OPEN over 4096 octets is refused; but UPDATE and NOTIFICATION over 65535 octets are written with a truncated length (c07_truncated_disproved), OPEN parameters over 255 octets with a truncated parameter length (c07_parameters_disproved), and multiple-labels capabilities with len() one too large (c07_labels_disproved)."
  },
  {
   "property": "C08",
   "status": "proved",
   "theorems": [
    "Verif.Props.c08_chunks",
    "Verif.Props.c08_two"
   ],
   "note": ""
  },
  {
   "property": "C09",
   "status": "partial",
   "theorems": [
    "Verif.Props.c09_wait",
    "Verif.Props.c09_progress_partial",
    "Verif.Props.c09_terminates_partial",
    "Verif.Props.c09_disproved"
   ],
   "note": "A header with length 0 is an error that removes nothing, so a draining loop never ends (c09_disproved); everything holds for all other lengths."
  },
  {
   "property": "C10",
   "status": "proved",
   "theorems": [
    "Verif.Props.c10_as_width"
   ],
   "note": ""
  },
  {
   "property": "C100",
   "status": "partial",
   "theorems": [
    "Verif.Props.c100_stopped_partial",
    "Verif.Props.c100_end",
    "Verif.Props.c100_disproved"
   ],
   "note": "What is sent is complete. False otherwise: records in windows that are open when the command arrives are not reported (c100_disproved)."
  },
  {
   "property": "C101",
   "status": "partial",
   "theorems": [
    "Verif.Props.c101_scaled_partial",
    "Verif.Props.c101_disproved"
   ],
   "note": "Proved: the result is the product but for one part in 2^51, rounded down; exact for whole ratios with a result below 2^53; and below 2^51 the product rounded down or, where it is a whole number, possibly one less. Floating point arithmetic is modelled (round to nearest even, 53 digits, infinity and NaN), not assumed. False in full: 7 packets of a sample of 7 out of 61 become 60, and counters above 2^53 change although nothing was sampled (c101_disproved)."
  },
  {
   "property": "C102",
   "status": "partial",
   "theorems": [
    "Verif.Props.c102_unsaid_partial",
    "Verif.Props.c102_grows_partial",
    "Verif.Props.c102_disproved"
   ],
   "note": "Records that tell no ratio are left alone, and with a ratio of at least one no counter below 2^53 becomes smaller. False: an interval of 0 in samplingInterval or samplerRandomInterval, which exporters send for no sampling, sets all counters to 0, and a sample larger than its population is used (c102_disproved)."
  },
  {
   "property": "C103",
   "status": "proved",
   "theorems": [
    "Verif.Props.c103_sent",
    "Verif.Props.c103_all"
   ],
   "note": ""
  },
  {
   "property": "C104",
   "status": "proved",
   "theorems": [
    "Verif.Props.c104_order"
   ],
   "note": ""
  },
  {
   "property": "C105",
   "status": "partial",
   "theorems": [
    "Verif.Props.c105_again_partial",
    "Verif.Props.c105_stable_partial",
    "Verif.Props.c105_disproved"
   ],
   "note": "False: the mark is not looked at, so each pass scales the counters again and adds another mark (c105_again_partial, c105_disproved). A record is left alone exactly if it has no counters or tells no ratio."
  },
  {
   "property": "C106",
   "status": "proved",
   "theorems": [
    "Verif.Props.c106_told",
    "Verif.Props.c106_each"
   ],
   "note": "Up to the order of the fields in an operation, which is that of a hash map."
  },
  {
   "property": "C107",
   "status": "partial",
   "theorems": [
    "Verif.Props.c107_added_partial",
    "Verif.Props.c107_disproved"
   ],
   "note": "Proved for scopes and announcements in which no element occurs twice. False otherwise: names for two different interfaces are dropped; a record that also tells of sampling does not name the interface of flows; sampling announced for the observation domain (observationDomainId as scope) reaches no flow; and with an element twice in the scope the order of a hash map decides (c107_disproved)."
  },
  {
   "property": "C108",
   "status": "partial",
   "theorems": [
    "Verif.Props.c108_same",
    "Verif.Props.c108_interface_partial",
    "Verif.Props.c108_disproved"
   ],
   "note": "NetFlow records have the effect of IPFIX records with the translated scope, and names of interfaces are known for both ways. False for other information: what is told for an interface, as its sampling, is known only for flows that both come in and go out through it (c108_disproved)."
  },
  {
   "property": "C109",
   "status": "proved",
   "theorems": [
    "Verif.Props.c109_order",
    "Verif.Props.c109_all",
    "Verif.Props.c109_skipped"
   ],
   "note": ""
  },
  {
   "property": "C11",
   "status": "partial",
   "theorems": [
    "Verif.Props.c11_partial",
    "Verif.Props.c11_disproved"
   ],
   "note": "A frame that fails leaves its recorded errors behind for the next message (c11_disproved); exactly what is returned is proved, and that it is the errors of the message itself if the previous call returned a message."
  },
  {
   "property": "C110",
   "status": "partial",
   "theorems": [
    "Verif.Props.c110_multiplied_partial",
    "Verif.Props.c110_disproved"
   ],
   "note": "Proved for samplingInterval if nothing else about sampling is known for the record and the products are below 2^53. False: sampling by time and sampling announced for the observation domain have no effect (c110_disproved)."
  },
  {
   "property": "C111",
   "status": "proved",
   "theorems": [
    "Verif.Props.c111_nothing_stale",
    "Verif.Props.c111_returned"
   ],
   "note": "For configurations in which each path occurs once. Operations are taken to reach the cache."
  },
  {
   "property": "C112",
   "status": "partial",
   "theorems": [
    "Verif.Props.c112_known_partial",
    "Verif.Props.c112_as_loaded_partial",
    "Verif.Props.c112_known_disproved"
   ],
   "note": "Proved as long as different lines are never about the same element of the same exporter and scope at the same time. False otherwise: a line that is moved to another file, which is noticed first, is lost when it is removed from the old file (c112_known_disproved)."
  },
  {
   "property": "C113",
   "status": "proved",
   "theorems": [
    "Verif.Props.c113_start",
    "Verif.Props.c113_change"
   ],
   "note": ""
  },
  {
   "property": "C114",
   "status": "partial",
   "theorems": [
    "Verif.Props.c114_identifier_partial"
   ],
   "note": "For lines that are never about the same at the same time, as C112, and as far as no other source has to do with the element for the exporter."
  },
  {
   "property": "C115",
   "status": "proved",
   "theorems": [
    "Verif.Props.c115_nothing_stale",
    "Verif.Props.c115_returned"
   ],
   "note": "Operations are taken to reach the cache. How JSON is read is left out."
  },
  {
   "property": "C116",
   "status": "partial",
   "theorems": [
    "Verif.Props.c116_known_partial",
    "Verif.Props.c116_known_disproved"
   ],
   "note": "Proved if no two nodes of the inventory have the same address at the same time. False otherwise: if a node is inserted with the address of another one that is deleted afterwards, nothing is known of it although it is in the inventory (c116_known_disproved)."
  },
  {
   "property": "C117",
   "status": "proved",
   "theorems": [
    "Verif.Props.c117_labels",
    "Verif.Props.c117_messages"
   ],
   "note": "Serializing the payload again is taken to succeed."
  },
  {
   "property": "C118",
   "status": "partial",
   "theorems": [
    "Verif.Props.c118_metadata_partial",
    "Verif.Props.c118_metadata_disproved"
   ],
   "note": "False for the transport and the encoding: messages of a subscription with CBOR say that it is encoded as JSON (c118_metadata_disproved). Proved for all else, and for filters if only one of the stream and the datastore has one of each kind."
  },
  {
   "property": "C119",
   "status": "partial",
   "theorems": [
    "Verif.Props.c119_nothing_stale",
    "Verif.Props.c119_known_partial",
    "Verif.Props.c119_known_disproved"
   ],
   "note": "Nothing stale is proved. That nodes are known is proved if no two have the same address at the same time and no other source has to do with the address, and false otherwise, as C116 (c119_known_disproved)."
  },
  {
   "property": "C12",
   "status": "partial",
   "theorems": [
    "Verif.Props.c12_accepts_iff",
    "Verif.Props.c12_rejects_partial",
    "Verif.Props.c12_hold_offset_disproved"
   ],
   "note": "Acceptance is proved exactly; every rejection carries the offending value at its offset except the hold time, whose offset is two octets early (c12_hold_offset_disproved)."
  },
  {
   "property": "C120",
   "status": "proved",
   "theorems": [
    "Verif.Props.c120_validated",
    "Verif.Props.c120_decided"
   ],
   "note": "Decoding, loading schemas and validating are parameters."
  },
  {
   "property": "C121",
   "status": "proved",
   "theorems": [
    "Verif.Props.c121_once",
    "Verif.Props.c121_count"
   ],
   "note": "Packets that cannot be decoded are not counted."
  },
  {
   "property": "C122",
   "status": "partial",
   "theorems": [
    "Verif.Props.c122_lost_partial",
    "Verif.Props.c122_lost_disproved"
   ],
   "note": "Proved if subscriptions are always described in the same way and started before they are updated. False otherwise: an update that is held when its subscription is started, and a start that is held when its subscription is modified, are lost without a warning (c122_lost_disproved)."
  },
  {
   "property": "C123",
   "status": "partial",
   "theorems": [
    "Verif.Props.c123_order_partial",
    "Verif.Props.c123_order_disproved"
   ],
   "note": "False: only the first notification is held. Those after it are forwarded at once without being validated and so overtake it (c123_order_disproved). Proved: with a packet only its notification is forwarded, and with a response at most one, of its subscription."
  },
  {
   "property": "C124",
   "status": "partial",
   "theorems": [
    "Verif.Props.c124_limits_partial",
    "Verif.Props.c124_limits_disproved"
   ],
   "note": "False by one, and subscriptions of a peer are remembered and looked up beyond the limit (c124_limits_disproved). Proved with one packet more than the limits."
  },
  {
   "property": "C125",
   "status": "partial",
   "theorems": [
    "Verif.Props.c125_peers_partial",
    "Verif.Props.c125_publishers_disproved"
   ],
   "note": "Proved for peers with different addresses. False for publishers with the same address, whose subscriptions have the same numbers: the notification of one is dropped by the schemas of the other (c125_publishers_disproved)."
  },
  {
   "property": "C126",
   "status": "partial",
   "theorems": [
    "Verif.Props.c126_source_partial",
    "Verif.Props.c126_source_disproved"
   ],
   "note": "Proved for the address and the subscription, and for the port of notifications that start or modify a subscription. False for the port of others, which is that of the start (c126_source_disproved)."
  },
  {
   "property": "C127",
   "status": "partial",
   "theorems": [
    "Verif.Props.c127_lookups_partial",
    "Verif.Props.c127_lookups_disproved"
   ],
   "note": "Proved if subscriptions are always described in the same way and with their modules. False for a start that does not name its modules: it is looked up again with each response, without end (c127_lookups_disproved)."
  },
  {
   "property": "C128",
   "status": "partial",
   "theorems": [
    "Verif.Props.c128_released_partial",
    "Verif.Props.c128_released_disproved"
   ],
   "note": "Proved for notifications other than those that start or modify a subscription without naming its modules. Those are never forwarded, in any history (c128_released_disproved)."
  },
  {
   "property": "C129",
   "status": "partial",
   "theorems": [
    "Verif.Props.c129_restart_partial",
    "Verif.Props.c129_schemas_partial",
    "Verif.Props.c129_restart_disproved",
    "Verif.Props.c129_moved_disproved"
   ],
   "note": "Proved if no description is given another library while it has one, and all modules and submodules of libraries have schemas and revisions, the same wherever they are listed, while modules that are imported only have no submodules; by number if each has one description and libraries are not removed by content identifier. False for a library with a module that has no revision: the collector cannot be started again (c129_restart_disproved); and for a description that is given another library: the order of directories decides (c129_moved_disproved)."
  },
  {
   "property": "C13",
   "status": "partial",
   "theorems": [
    "Verif.Props.c13_roundtrip_partial",
    "Verif.Props.c13_decoded_fits_partial",
    "Verif.Props.c13_multipleLabels_disproved",
    "Verif.Props.c13_oversize_disproved"
   ],
   "note": "Round trip, length octet and len() for every capability except multiple labels, which is written without a length octet (c13_multipleLabels_disproved); oversized values are emitted with a wrong length octet (c13_oversize_disproved)."
  },
  {
   "property": "C130",
   "status": "partial",
   "theorems": [
    "Verif.Props.c130_found_partial",
    "Verif.Props.c130_found_disproved"
   ],
   "note": "What is found was put for that description, always; that it was put last is proved if no description is given another library while it has one. False otherwise: a library that is there already is not given to a description that has another (c130_found_disproved)."
  },
  {
   "property": "C131",
   "status": "partial",
   "theorems": [
    "Verif.Props.c131_number_partial",
    "Verif.Props.c131_number_disproved"
   ],
   "note": "Proved if each number has one description, which is not given another library while it has one, and libraries are not removed by content identifier. False for a number that is described in turns (c131_number_disproved)."
  },
  {
   "property": "C132",
   "status": "partial",
   "theorems": [
    "Verif.Props.c132_dropped_partial",
    "Verif.Props.c132_dropped_disproved"
   ],
   "note": "Proved for lookups by content identifier and by description, and for the disk. False for lookups by number, which are removed by another content identifier (c132_dropped_disproved)."
  },
  {
   "property": "C133",
   "status": "partial",
   "theorems": [
    "Verif.Props.c133_removed_partial",
    "Verif.Props.c133_removed_disproved"
   ],
   "note": "Proved for lookups by description and by content identifier, and for the disk. False for lookups by number: a newer description of the number is forgotten (c133_removed_disproved)."
  },
  {
   "property": "C134",
   "status": "partial",
   "theorems": [
    "Verif.Props.c134_answered_partial",
    "Verif.Props.c134_answered_disproved",
    "Verif.Props.c134_once_disproved"
   ],
   "note": "At most one answer for each lookup, always; exactly one is proved if no worker panics, workers are started in time, and one who asks neither uses a one-shot channel by number nor closes its own. False otherwise: after a panic nobody who asks for that subscription is ever answered (c134_answered_disproved); one-shot lookups by number are not answered unless the library is there, nor those whose worker is not started in time (c134_once_disproved)."
  },
  {
   "property": "C135",
   "status": "partial",
   "theorems": [
    "Verif.Props.c135_once_partial",
    "Verif.Props.c135_once_disproved",
    "Verif.Props.c135_oneShot_disproved"
   ],
   "note": "Proved if nobody is removed as closed, one-shot lookups do not fail, and for workers other than those of one-shot lookups; that nothing is fetched again after an answer with a library is proved in general. False otherwise (c135_once_disproved, c135_oneShot_disproved)."
  },
  {
   "property": "C136",
   "status": "proved",
   "theorems": [
    "Verif.Props.c136_fitting"
   ],
   "note": "For workers that bring what they were asked for, as those of the collector do."
  },
  {
   "property": "C137",
   "status": "proved",
   "theorems": [
    "Verif.Props.c137_validated"
   ],
   "note": "For workers that bring what they were asked for, as those of the collector do. Loading schemas and validity are parameters."
  },
  {
   "property": "C138",
   "status": "proved",
   "theorems": [
    "Verif.Props.c138_ends"
   ],
   "note": "For libraries where modules that are imported only are listed by their names, as those that are read from devices are. What devices answer and what schemas depend on are parameters."
  },
  {
   "property": "C139",
   "status": "proved",
   "theorems": [
    "Verif.Props.c139_needed",
    "Verif.Props.c139_library"
   ],
   "note": "Imports that the library of the device does not list are left out, as are all but one revision of modules that are imported only."
  },
  {
   "property": "C14",
   "status": "proved",
   "theorems": [
    "Verif.Props.c14_lenient",
    "Verif.Props.c14_open",
    "Verif.Props.c14_strict"
   ],
   "note": ""
  },
  {
   "property": "C140",
   "status": "partial",
   "theorems": [
    "Verif.Props.c140_loaded_partial",
    "Verif.Props.c140_imported_disproved",
    "Verif.Props.c140_nested_disproved"
   ],
   "note": "Proved for modules that include exactly the submodules listed with them, while modules that are imported only have none. False for modules that are imported only and have submodules, which makes the worker panic (c140_imported_disproved), and for submodules that are included by submodules only (c140_nested_disproved)."
  },
  {
   "property": "C141",
   "status": "partial",
   "theorems": [
    "Verif.Props.c141_schema_partial",
    "Verif.Props.c141_schemas_disproved",
    "Verif.Props.c141_features_disproved"
   ],
   "note": "Proved for libraries that differ in one schema, for digests that tell all texts apart. False for two schemas (c141_schemas_disproved) and for features (c141_features_disproved), as texts are hashed without anything between them."
  },
  {
   "property": "C142",
   "status": "partial",
   "theorems": [
    "Verif.Props.c142_extended_partial",
    "Verif.Props.c142_revision_disproved",
    "Verif.Props.c142_revisions_disproved"
   ],
   "note": "Proved for libraries that list all once, where modules of both that are imported only have the same revision and those of both with the same schema list the same submodules. False if a module that is imported only has another revision (c142_revision_disproved), or two (c142_revisions_disproved)."
  },
  {
   "property": "C143",
   "status": "partial",
   "theorems": [
    "Verif.Props.c143_metadata_ends",
    "Verif.Props.c143_dependencies_partial",
    "Verif.Props.c143_cut_disproved",
    "Verif.Props.c143_backslash_disproved"
   ],
   "note": "Proved for metadata of all texts, and for dependencies of texts without the keywords import and include; those of C145 end as well. False for dependencies of texts that end within an import or include (c143_cut_disproved) and of valid modules with a string in an import that ends with a backslash (c143_backslash_disproved)."
  },
  {
   "property": "C144",
   "status": "partial",
   "theorems": [
    "Verif.Props.c144_ascii_partial",
    "Verif.Props.c144_mark_disproved",
    "Verif.Props.c144_comment_disproved",
    "Verif.Props.c144_space_disproved"
   ],
   "note": "Proved for texts in ASCII; those of C145 and C146 may have other characters in strings and comments. False for texts with a byte order mark (c144_mark_disproved), those that end in a comment after a character of several bytes (c144_comment_disproved) and those with a no-break space after a word (c144_space_disproved)."
  },
  {
   "property": "C145",
   "status": "partial",
   "theorems": [
    "Verif.Props.c145_dependencies_partial",
    "Verif.Props.c145_keyword_disproved"
   ],
   "note": "Proved for modules as in the grammar of Yang/Spec: comments anywhere, all kinds of strings, nested statements. Missing are modules with the keywords looked for as arguments without quotes, for which it is false (c145_keyword_disproved), and strings in imports and includes that end with backslashes."
  },
  {
   "property": "C146",
   "status": "partial",
   "theorems": [
    "Verif.Props.c146_metadata_partial",
    "Verif.Props.c146_submodule_disproved"
   ],
   "note": "Proved for modules as in the grammar of Yang/Spec, and submodules without imports but for their prefixes. False for the prefixes of submodules (c146_submodule_disproved)."
  },
  {
   "property": "C147",
   "status": "proved",
   "theorems": [
    "Verif.Props.c147_registered"
   ],
   "note": "For any order of nodes that is as the contract of petgraph says."
  },
  {
   "property": "C148",
   "status": "proved",
   "theorems": [
    "Verif.Props.c148_reached"
   ],
   "note": ""
  },
  {
   "property": "C149",
   "status": "partial",
   "theorems": [
    "Verif.Props.c149_succeeds_partial",
    "Verif.Props.c149_imported_disproved"
   ],
   "note": "Proved for libraries with one set of modules whose schemas do not need each other in a circle. False if a module that is imported only includes a submodule (c149_imported_disproved)."
  },
  {
   "property": "C15",
   "status": "partial",
   "theorems": [
    "Verif.Props.c15_header",
    "Verif.Props.c15_layer",
    "Verif.Props.c15_open",
    "Verif.Props.c15_length_disproved",
    "Verif.Props.c15_flags_disproved"
   ],
   "note": "Header and OPEN faults map exactly as RFC 4271 asks, and every failing body to the code of its layer (a malformed NOTIFICATION to code 5); for UPDATE, attribute length errors get subcode 9 and the attribute is never included as data (c15_length_disproved, c15_flags_disproved)."
  },
  {
   "property": "C150",
   "status": "partial",
   "theorems": [
    "Verif.Props.c150_ends_partial",
    "Verif.Props.c150_circle_disproved"
   ],
   "note": "Proved if no submodule includes itself, directly or not. False if submodules include each other (c150_circle_disproved): the recursion has no end."
  },
  {
   "property": "C151",
   "status": "partial",
   "theorems": [
    "Verif.Props.c151_calm_partial",
    "Verif.Props.c151_text_disproved"
   ],
   "note": "Proved if there is a schema for all that is listed and the registry gives identifiers. False without a schema of a submodule (c151_text_disproved)."
  },
  {
   "property": "C152",
   "status": "partial",
   "theorems": [
    "Verif.Props.c152_versions_partial",
    "Verif.Props.c152_relaxed_disproved"
   ],
   "note": "Proved for registries that answer with subjects and versions. False for those that do not, if they refuse a schema first (c152_relaxed_disproved): then the reference has no subject and version 0."
  },
  {
   "property": "C153",
   "status": "partial",
   "theorems": [
    "Verif.Props.c153_itself_partial",
    "Verif.Props.c153_root_disproved"
   ],
   "note": "Proved if something refers to the root. False otherwise (c153_root_disproved): the root then refers to itself."
  },
  {
   "property": "C154",
   "status": "proved",
   "theorems": [
    "Verif.Props.c154_relayed",
    "Verif.Props.c154_once"
   ],
   "note": ""
  },
  {
   "property": "C155",
   "status": "proved",
   "theorems": [
    "Verif.Props.c155_accounted"
   ],
   "note": ""
  },
  {
   "property": "C156",
   "status": "proved",
   "theorems": [
    "Verif.Props.c156_bounded"
   ],
   "note": ""
  },
  {
   "property": "C157",
   "status": "proved",
   "theorems": [
    "Verif.Props.c157_values"
   ],
   "note": ""
  },
  {
   "property": "C158",
   "status": "proved",
   "theorems": [
    "Verif.Props.c158_accounted"
   ],
   "note": ""
  },
  {
   "property": "C159",
   "status": "partial",
   "theorems": [
    "Verif.Props.c159_reported_partial",
    "Verif.Props.c159_empty_disproved"
   ],
   "note": "Proved for messages with values. False for messages that are converted to no values (c159_empty_disproved): an error is reported though nothing failed."
  },
  {
   "property": "C16",
   "status": "proved",
   "theorems": [
    "Verif.Props.c16_roundtrip",
    "Verif.Props.c16_accepts_iff",
    "Verif.Props.c16_lengths",
    "Verif.Props.c16_decoded_wf"
   ],
   "note": ""
  },
  {
   "property": "C160",
   "status": "proved",
   "theorems": [
    "Verif.Props.c160_schemas"
   ],
   "note": "For caches that answer for the content identifier they are asked for, as the cache of the collector does."
  },
  {
   "property": "C161",
   "status": "proved",
   "theorems": [
    "Verif.Props.c161_once"
   ],
   "note": "For caches that answer for the content identifier they are asked for."
  },
  {
   "property": "C162",
   "status": "partial",
   "theorems": [
    "Verif.Props.c162_accounted_partial",
    "Verif.Props.c162_lost_disproved"
   ],
   "note": "Proved but for messages whose schema can not be asked for or registered. These are counted as received only (c162_lost_disproved), and are not sent though there may be a default schema."
  },
  {
   "property": "C163",
   "status": "partial",
   "theorems": [
    "Verif.Props.c163_flush_partial",
    "Verif.Props.c163_closed_disproved"
   ],
   "note": "Proved for shutdown. False if the messages end (c163_closed_disproved)."
  },
  {
   "property": "C164",
   "status": "proved",
   "theorems": [
    "Verif.Props.c164_posted"
   ],
   "note": ""
  },
  {
   "property": "C165",
   "status": "partial",
   "theorems": [
    "Verif.Props.c165_all_partial",
    "Verif.Props.c165_shutdown_disproved",
    "Verif.Props.c165_failure_disproved"
   ],
   "note": "Proved but for the last messages, no more than the minimum of a batch, if the server replies to all. These are dropped on shutdown (c165_shutdown_disproved), and a request that fails ends the publisher (c165_failure_disproved)."
  },
  {
   "property": "C166",
   "status": "partial",
   "theorems": [
    "Verif.Props.c166_counted_partial",
    "Verif.Props.c166_status_disproved",
    "Verif.Props.c166_failed_disproved"
   ],
   "note": "Proved for batches as they are: those with any reply are counted as sent, those without as one failure. False for replies with an error status (c166_status_disproved) and for batches that fail (c166_failed_disproved)."
  },
  {
   "property": "C167",
   "status": "proved",
   "theorems": [
    "Verif.Props.c167_delivered"
   ],
   "note": ""
  },
  {
   "property": "C168",
   "status": "proved",
   "theorems": [
    "Verif.Props.c168_unsubscribed",
    "Verif.Props.c168_closed"
   ],
   "note": ""
  },
  {
   "property": "C169",
   "status": "partial",
   "theorems": [
    "Verif.Props.c169_partial",
    "Verif.Props.c169_disproved"
   ],
   "note": "Proved but for datagrams that are not decoded: those that are cut short are counted as received only (c169_disproved)."
  },
  {
   "property": "C17",
   "status": "proved",
   "theorems": [
    "Verif.Props.c17_reassembly",
    "Verif.Props.c17_consistent",
    "Verif.Props.c17_unsegmented",
    "Verif.Props.c17_cleanup"
   ],
   "note": ""
  },
  {
   "property": "C170",
   "status": "proved",
   "theorems": [
    "Verif.Props.c170_independent"
   ],
   "note": ""
  },
  {
   "property": "C171",
   "status": "partial",
   "theorems": [
    "Verif.Props.c171_flow",
    "Verif.Props.c171_partial",
    "Verif.Props.c171_disproved"
   ],
   "note": "Proved for flows. False for UDP-notif: a datagram that is cut short and then one of one octet from the same peer end the actor for all peers (c171_disproved). Only a datagram of one octet from a peer that was heard of before does so (c171_partial)."
  },
  {
   "property": "C172",
   "status": "proved",
   "theorems": [
    "Verif.Props.c172_shards"
   ],
   "note": ""
  },
  {
   "property": "C173",
   "status": "proved",
   "theorems": [
    "Verif.Props.c173_unused"
   ],
   "note": ""
  },
  {
   "property": "C174",
   "status": "partial",
   "theorems": [
    "Verif.Props.c174_partial",
    "Verif.Props.c174_disproved"
   ],
   "note": "Proved for peers purged by their address. False for those purged because they are unused, which stay listed and keep their templates (c174_disproved)."
  },
  {
   "property": "C175",
   "status": "partial",
   "theorems": [
    "Verif.Props.c175_partial",
    "Verif.Props.c175_never",
    "Verif.Props.c175_disproved"
   ],
   "note": "Proved for peers of which something was decoded before the first purge. False for others, which are never reported (c175_never, c175_disproved)."
  },
  {
   "property": "C176",
   "status": "proved",
   "theorems": [
    "Verif.Props.c176_peers"
   ],
   "note": ""
  },
  {
   "property": "C177",
   "status": "partial",
   "theorems": [
    "Verif.Props.c177_subscribe",
    "Verif.Props.c177_unsubscribe",
    "Verif.Props.c177_disproved"
   ],
   "note": "Proved but for the last part: the answer names actors that never had the subscription (c177_disproved)."
  },
  {
   "property": "C178",
   "status": "partial",
   "theorems": [
    "Verif.Props.c178_flow",
    "Verif.Props.c178_partial",
    "Verif.Props.c178_disproved"
   ],
   "note": "Proved for flows, and for UDP-notif if a socket can be bound; otherwise the task of its supervisor panics (c178_disproved)."
  },
  {
   "property": "C179",
   "status": "proved",
   "theorems": [
    "Verif.Props.c179_all"
   ],
   "note": ""
  },
  {
   "property": "C18",
   "status": "partial",
   "theorems": [
    "Verif.Props.c18_fault_iff",
    "Verif.Props.c18_no_panic_partial",
    "Verif.Props.c18_untruncated_partial",
    "Verif.Props.c18_disproved",
    "Verif.Props.c18_from_bytes"
   ],
   "note": "False as stated: a truncated datagram followed by one of 0 or 1 octets panics (c18_disproved). The exact panic condition is proved, and absence of panics for all histories that avoid it."
  },
  {
   "property": "C180",
   "status": "proved",
   "theorems": [
    "Verif.Props.c180_none"
   ],
   "note": ""
  },
  {
   "property": "C181",
   "status": "partial",
   "theorems": [
    "Verif.Props.c181_partial",
    "Verif.Props.c181_disproved"
   ],
   "note": "Proved for a connection that has taken the updates that wait, of which there are at most 17. False without: tasks may take a message before an update that waits (c181_disproved)."
  },
  {
   "property": "C182",
   "status": "partial",
   "theorems": [
    "Verif.Props.c182_partial",
    "Verif.Props.c182_disproved"
   ],
   "note": "Proved when no peer comes back from the same address and port; that only open connections are listed when no notice waits or was lost and no subscription is without channels. False when a peer comes back before the notice of its earlier connection is taken: the notice takes the new connection off the list (c182_disproved)."
  },
  {
   "property": "C183",
   "status": "partial",
   "theorems": [
    "Verif.Props.c183_partial",
    "Verif.Props.c183_disproved"
   ],
   "note": "Proved when no peer comes back from the same address and port. False when it does: the connection that was taken off the list is neither disconnected nor shut down (c183_disproved)."
  },
  {
   "property": "C184",
   "status": "proved",
   "theorems": [
    "Verif.Props.c184_counters"
   ],
   "note": ""
  },
  {
   "property": "C185",
   "status": "proved",
   "theorems": [
    "Verif.Props.c185_contained"
   ],
   "note": ""
  },
  {
   "property": "C186",
   "status": "partial",
   "theorems": [
    "Verif.Props.c186_partial",
    "Verif.Props.c186_disproved"
   ],
   "note": "Proved for subscriptions with at least one channel. A subscription without ends each connection at its next message, by a division by zero, and the connection stays listed (c186_disproved)."
  },
  {
   "property": "C187",
   "status": "partial",
   "theorems": [
    "Verif.Props.c187_partial",
    "Verif.Props.c187_disproved"
   ],
   "note": "Proved if nobody is between looking at the flag and starting to wait when waiters are woken. False otherwise: who is waits forever, and later calls do not wake it (c187_disproved)."
  },
  {
   "property": "C188",
   "status": "proved",
   "theorems": [
    "Verif.Props.c188_requests"
   ],
   "note": "One message is dropped, and the connection ends, if the service is not ready for it."
  },
  {
   "property": "C189",
   "status": "proved",
   "theorems": [
    "Verif.Props.c189_count"
   ],
   "note": ""
  },
  {
   "property": "C19",
   "status": "partial",
   "theorems": [
    "Verif.Props.c19_options_partial",
    "Verif.Props.c19_disproved"
   ],
   "note": "Options of segment 0 are dropped (c19_disproved); options of all other segments are kept."
  },
  {
   "property": "C190",
   "status": "partial",
   "theorems": [
    "Verif.Props.c190_partial",
    "Verif.Props.c190_disproved"
   ],
   "note": "Proved when accepting does not fail, no connection is taken after a graceful shutdown is asked for and none is just ending when it is. False otherwise in each of the three cases (c190_disproved)."
  },
  {
   "property": "C191",
   "status": "partial",
   "theorems": [
    "Verif.Props.c191_partial",
    "Verif.Props.c191_disproved"
   ],
   "note": "Proved if nobody is between looking at the flag and starting to wait when waiters are woken; it takes a turn of serve and of the worker. False otherwise (c191_disproved)."
  },
  {
   "property": "C192",
   "status": "partial",
   "theorems": [
    "Verif.Props.c192_partial",
    "Verif.Props.c192_disproved"
   ],
   "note": "Proved if serve is not between looking at a flag and starting to wait when waiters are woken. False otherwise: without a limit of time it waits forever (c192_disproved)."
  },
  {
   "property": "C193",
   "status": "proved",
   "theorems": [
    "Verif.Props.c193_reads",
    "Verif.Props.c193_first_panic",
    "Verif.Props.c193_once"
   ],
   "note": "The blocks of a capture are what pcap-parser returns. When a block makes reading panic, what comes before is as said (c193_first_panic); whether one does is C196."
  },
  {
   "property": "C194",
   "status": "proved",
   "theorems": [
    "Verif.Props.c194_exact",
    "Verif.Props.c194_many_tags"
   ],
   "note": "For frames without padding (C195). The headers are written from their RFCs; pcap-parser and pdu are assumed to read such headers as they should (Lib.Faithful), which a reference library meets (Pcap/RefLib)."
  },
  {
   "property": "C195",
   "status": "partial",
   "theorems": [
    "Verif.Props.c195_partial",
    "Verif.Props.c195_disproved"
   ],
   "note": "Proved for UDP over IPv4, whose length is used. False for TCP, and for UDP over IPv6, for any padding: it is read as payload (c195_disproved)."
  },
  {
   "property": "C196",
   "status": "partial",
   "theorems": [
    "Verif.Props.c196_partial",
    "Verif.Props.c196_disproved",
    "Verif.Props.c196_disproved_cut",
    "Verif.Props.c196_disproved_length"
   ],
   "note": "Proved for captures without simple packet blocks and reading errors, whose frames refer to interfaces that were described and carry neither GRE nor ESP nor UDP that is cut short. False otherwise (c196_disproved, c196_disproved_cut; c196_disproved_length for a library that hands on datagrams whose length is below 8)."
  },
  {
   "property": "C197",
   "status": "partial",
   "theorems": [
    "Verif.Props.c197_partial",
    "Verif.Props.c197_disproved"
   ],
   "note": "Proved for captures of one section. False for several: interfaces of a later section are looked up among those of the first (c197_disproved)."
  },
  {
   "property": "C198",
   "status": "partial",
   "theorems": [
    "Verif.Props.c198_bgp",
    "Verif.Props.c198_flow",
    "Verif.Props.c198_bmp_partial",
    "Verif.Props.c198_notif_partial",
    "Verif.Props.c198_bmp_disproved",
    "Verif.Props.c198_notif_disproved"
   ],
   "note": "Proved for BGP and flow. BMP never loops, but one message makes it panic (c198_bmp_disproved); UDP-notif is proved for datagrams of two octets or more whose payloads can be read, and false otherwise (c198_notif_disproved, C204)."
  },
  {
   "property": "C199",
   "status": "partial",
   "theorems": [
    "Verif.Props.c199_bgp",
    "Verif.Props.c199_bmp",
    "Verif.Props.c199_disproved",
    "Verif.Props.c199_disproved_order"
   ],
   "note": "Proved for segments that are captured once and in order, for BMP when the run does not panic (C198). False for segments that are sent again or out of order: sequence numbers are not looked at (c199_disproved, c199_disproved_order)."
  },
  {
   "property": "C20",
   "status": "proved",
   "theorems": [
    "Verif.Props.c20_exactly_once",
    "Verif.Props.c20_stream",
    "Verif.Props.c20_terminates"
   ],
   "note": ""
  },
  {
   "property": "C200",
   "status": "partial",
   "theorems": [
    "Verif.Props.c200_bgp",
    "Verif.Props.c200_flow",
    "Verif.Props.c200_partial",
    "Verif.Props.c200_disproved"
   ],
   "note": "Proved for BGP and flow, and for any handler when the run ends. False for UDP-notif when one sender makes it panic (c200_disproved)."
  },
  {
   "property": "C201",
   "status": "partial",
   "theorems": [
    "Verif.Props.c201_partial",
    "Verif.Props.c201_disproved"
   ],
   "note": "Proved when no datagram leaves octets behind that wait for more. False otherwise: a datagram that is cut is put in front of the next one (c201_disproved)."
  },
  {
   "property": "C202",
   "status": "partial",
   "theorems": [
    "Verif.Props.c202_lines",
    "Verif.Props.c202_numbers",
    "Verif.Props.c202_disproved"
   ],
   "note": "What is written and its numbers are proved for every handler. How the run ends depends on frames behind the limit: a GRE packet there makes it panic (c202_disproved)."
  },
  {
   "property": "C203",
   "status": "partial",
   "theorems": [
    "Verif.Props.c203_partial",
    "Verif.Props.c203_disproved"
   ],
   "note": "Proved: the error is the last result of its packet and the next packet starts anew. False for messages of the same segment, which are lost (c203_disproved)."
  },
  {
   "property": "C204",
   "status": "partial",
   "theorems": [
    "Verif.Props.c204_partial",
    "Verif.Props.c204_disproved",
    "Verif.Props.c204_disproved_option"
   ],
   "note": "Proved when all payloads can be read and no option is unknown: a line for each result, in order. False otherwise: the run panics and the rest is lost (c204_disproved, c204_disproved_option). What JSON, XML and CBOR are is a parameter; that serde_json refuses keys that are newtype variants is an assumption."
  },
  {
   "property": "C205",
   "status": "partial",
   "theorems": [
    "Verif.Props.c205_partial",
    "Verif.Props.c205_disproved"
   ],
   "note": "Proved for the first message of a flow and for messages directly behind another message. False behind a malformed message: the record of its errors is held against the next one, which is replaced by a notice (c205_disproved)."
  },
  {
   "property": "C206",
   "status": "proved",
   "theorems": [
    "Verif.Props.c206_text_back",
    "Verif.Props.c206_url_back"
   ],
   "note": "Proved for the text of any element as it is written and read by the functions for texts, and for the URL of an edit-config in a whole request. The lexer of quick-xml is modelled by what it gives for escaped text."
  },
  {
   "property": "C207",
   "status": "partial",
   "theorems": [
    "Verif.Props.c207_text_as_said_partial",
    "Verif.Props.c207_character_references_disproved",
    "Verif.Props.c207_undeclared_references_disproved"
   ],
   "note": "Proved for content whose references are to the five predefined entities. False for references to characters, which are read as their code, and to entities that are not declared."
  },
  {
   "property": "C208",
   "status": "partial",
   "theorems": [
    "Verif.Props.c208_reading_ends_partial",
    "Verif.Props.c208_closed_ends_partial",
    "Verif.Props.c208_with_library_partial",
    "Verif.Props.c208_truncated_disproved",
    "Verif.Props.c208_attribute_disproved"
   ],
   "note": "Proved for documents, well formed or not, with a closing tag behind each opening tag and attributes in UTF-8; with the reading of the YANG library that the code has, no more is asked. False otherwise: a document that is cut in the text of an element makes reading loop forever, and an attribute that is not UTF-8 in copied content makes it panic."
  },
  {
   "property": "C209",
   "status": "partial",
   "theorems": [
    "Verif.Props.c209_rpc_back_partial",
    "Verif.Props.c209_yang_library_disproved",
    "Verif.Props.c209_message_id_disproved",
    "Verif.Props.c209_identifier_disproved"
   ],
   "note": "Proved for every operation but one, under conditions on its texts and content. False for the request of the YANG library, message-ids with line ends, and identifiers with spaces around them."
  },
  {
   "property": "C21",
   "status": "proved",
   "theorems": [
    "Verif.Props.c21_window_once"
   ],
   "note": ""
  },
  {
   "property": "C210",
   "status": "partial",
   "theorems": [
    "Verif.Props.c210_reply_back_partial",
    "Verif.Props.c210_error_message_disproved",
    "Verif.Props.c210_error_reference_disproved",
    "Verif.Props.c210_details_disproved"
   ],
   "note": "Proved under conditions on texts of errors and content. False for texts of errors with ampersands, and for details of an error that are merged. What is written and read of the YANG library is a parameter."
  },
  {
   "property": "C211",
   "status": "partial",
   "theorems": [
    "Verif.Props.c211_hello_back_partial",
    "Verif.Props.c211_no_scheme_disproved"
   ],
   "note": "Proved for capabilities whose parameters fit into their texts; reading and writing of dates is a parameter. False for the capability of URLs without a scheme."
  },
  {
   "property": "C212",
   "status": "partial",
   "theorems": [
    "Verif.Props.c212_config_partial",
    "Verif.Props.c212_nested_config_disproved"
   ],
   "note": "Proved for content without an element named config. False for content with one: the rest is lost without an error."
  },
  {
   "property": "C213",
   "status": "partial",
   "theorems": [
    "Verif.Props.c213_no_data_partial",
    "Verif.Props.c213_empty_tag_disproved"
   ],
   "note": "Proved for an opening and a closing tag. False for an empty tag."
  },
  {
   "property": "C214",
   "status": "partial",
   "theorems": [
    "Verif.Props.c214_names_partial",
    "Verif.Props.c214_prefix_disproved",
    "Verif.Props.c214_sibling_disproved"
   ],
   "note": "Proved for one element without prefixes, as content of a request of another kind. False for prefixes that are bound around the content, and for more than one element."
  },
  {
   "property": "C215",
   "status": "partial",
   "theorems": [
    "Verif.Props.c215_schema_partial",
    "Verif.Props.c215_entity_disproved"
   ],
   "note": "Proved for texts without ampersands. False for those with entities: they are decoded twice."
  },
  {
   "property": "C216",
   "status": "partial",
   "theorems": [
    "Verif.Props.c216_capability_kept_partial",
    "Verif.Props.c216_white_space_disproved",
    "Verif.Props.c216_refused_disproved"
   ],
   "note": "Proved for texts without white space. False for white space in parameters or in front."
  },
  {
   "property": "C217",
   "status": "partial",
   "theorems": [
    "Verif.Props.c217_white_space_partial",
    "Verif.Props.c217_url_disproved",
    "Verif.Props.c217_library_disproved"
   ],
   "note": "Proved for capabilities without parameters. False for those with parameters."
  },
  {
   "property": "C218",
   "status": "partial",
   "theorems": [
    "Verif.Props.c218_hello_accepted_partial",
    "Verif.Props.c218_scheme_disproved",
    "Verif.Props.c218_parameter_disproved"
   ],
   "note": "Proved for names without parameters. False for some with parameters: one of them makes the whole hello be refused."
  },
  {
   "property": "C219",
   "status": "partial",
   "theorems": [
    "Verif.Props.c219_well_formed_partial",
    "Verif.Props.c219_library_partial",
    "Verif.Props.c219_error_message_disproved"
   ],
   "note": "Proved for requests, hellos, YANG libraries, and replies with libraries, schemas, data or other content, whose errors have no markup in their texts. False for errors with markup."
  },
  {
   "property": "C22",
   "status": "proved",
   "theorems": [
    "Verif.Props.c22_late",
    "Verif.Props.c22_keys_independent"
   ],
   "note": ""
  },
  {
   "property": "C220",
   "status": "partial",
   "theorems": [
    "Verif.Props.c220_more_namespaces_partial",
    "Verif.Props.c220_prefix_disproved",
    "Verif.Props.c220_attribute_disproved"
   ],
   "note": "Proved for one more namespace and the request to close the session. False if the namespace of NETCONF gets a prefix, and for a prefix named message-id."
  },
  {
   "property": "C221",
   "status": "partial",
   "theorems": [
    "Verif.Props.c221_reply_partial",
    "Verif.Props.c221_alone_partial",
    "Verif.Props.c221_white_space_disproved",
    "Verif.Props.c221_ampersand_disproved",
    "Verif.Props.c221_no_namespace_disproved"
   ],
   "note": "Proved for all libraries made of parts whose texts have no white space at their ends and whose datastores of other modules have a namespace without characters that are written as references. False otherwise: white space at ends is lost, the namespace of a datastore is read back with its references, and a datastore without namespace cannot be read."
  },
  {
   "property": "C222",
   "status": "proved",
   "theorems": [
    "Verif.Props.c222_any_order",
    "Verif.Props.c222_rearranged"
   ],
   "note": ""
  },
  {
   "property": "C223",
   "status": "partial",
   "theorems": [
    "Verif.Props.c223_more_at_end_partial",
    "Verif.Props.c223_imports_first_disproved",
    "Verif.Props.c223_revision_late_disproved",
    "Verif.Props.c223_unknown_between_disproved",
    "Verif.Props.c223_unknown_child_disproved"
   ],
   "note": "Proved for leaves of other modules at the end of a module. False otherwise: modules behind modules to import only are lost, so are a revision behind the namespace and features behind leaves of other modules, and an unknown child of the library makes all of it unreadable."
  },
  {
   "property": "C224",
   "status": "proved",
   "theorems": [
    "Verif.Props.c224_by_namespace",
    "Verif.Props.c224_unbound"
   ],
   "note": ""
  },
  {
   "property": "C225",
   "status": "proved",
   "theorems": [
    "Verif.Props.c225_found_by_name",
    "Verif.Props.c225_found_in_library"
   ],
   "note": ""
  },
  {
   "property": "C226",
   "status": "proved",
   "theorems": [
    "Verif.Props.c226_default_is_merge"
   ],
   "note": ""
  },
  {
   "property": "C227",
   "status": "proved",
   "theorems": [
    "Verif.Props.c227_distinct_ids"
   ],
   "note": "Numbers are natural numbers in the model and u32 in the code, so it holds for the first 4294957186 requests of a session."
  },
  {
   "property": "C228",
   "status": "proved",
   "theorems": [
    "Verif.Props.c228_schema_of_reply",
    "Verif.Props.c228_library_of_reply",
    "Verif.Props.c228_close_any_id"
   ],
   "note": ""
  },
  {
   "property": "C229",
   "status": "partial",
   "theorems": [
    "Verif.Props.c229_errors_only_partial",
    "Verif.Props.c229_errors_dropped_disproved"
   ],
   "note": "Holds of replies with errors and no data. False in general: errors beside data are dropped and the call succeeds."
  },
  {
   "property": "C23",
   "status": "partial",
   "theorems": [
    "Verif.Props.c23_contains_partial",
    "Verif.Props.c23_disproved"
   ],
   "note": "Window starts are whole minutes whatever the configured duration: containment fails below one minute and windows overlap above it (c23_disproved); both parts hold for the durations stated in c23_contains_partial."
  },
  {
   "property": "C230",
   "status": "partial",
   "theorems": [
    "Verif.Props.c230_asked_each_time_disproved"
   ],
   "note": "False: the field of the client that should hold the library is never set, so each call asks again."
  },
  {
   "property": "C231",
   "status": "partial",
   "theorems": [
    "Verif.Props.c231_in_turn_partial",
    "Verif.Props.c231_stray_reply_disproved"
   ],
   "note": "Proved for servers that answer in turn. False otherwise: after one stray reply all calls of the session fail, since each takes the reply to the one before."
  },
  {
   "property": "C232",
   "status": "partial",
   "theorems": [
    "Verif.Props.c232_datastore_reference_partial",
    "Verif.Props.c232_no_filter",
    "Verif.Props.c232_stream_reference_disproved"
   ],
   "note": "Proved for filters of datastores. False for filters of streams: the reference stays, and fetching such a subscription fails."
  },
  {
   "property": "C233",
   "status": "partial",
   "theorems": [
    "Verif.Props.c233_modules_offered",
    "Verif.Props.c233_found_partial",
    "Verif.Props.c233_fetched",
    "Verif.Props.c233_hidden_disproved"
   ],
   "note": "What is found is always right, and is found in libraries that list all module sets that their schemas name. Otherwise a set that is named and not listed hides the modules of the sets after it."
  },
  {
   "property": "C234",
   "status": "proved",
   "theorems": [
    "Verif.Props.c234_attempts",
    "Verif.Props.c234_waits"
   ],
   "note": "Times are whole milliseconds in the model and floating-point numbers in the code."
  },
  {
   "property": "C235",
   "status": "partial",
   "theorems": [
    "Verif.Props.c235_conforms_partial",
    "Verif.Props.c235_named_values_disproved",
    "Verif.Props.c235_times_disproved",
    "Verif.Props.c235_primitives_disproved",
    "Verif.Props.c235_primitive_numbers_disproved"
   ],
   "note": "Proved where elements that are published as they are have values of their data types, custom primitives are text, and one of them has a default. False otherwise: elements with names for their values, such as protocolIdentifier, are said to be numbers and published as text; times have a type that Avro does not know; custom primitives are missing in records that have none of them; and those that are numbers are accepted though the schema says text. That names are valid for Avro is not part of the claim."
  },
  {
   "property": "C236",
   "status": "partial",
   "theorems": [
    "Verif.Props.c236_accepted_partial",
    "Verif.Props.c236_unknown_disproved",
    "Verif.Props.c236_distinguisher_disproved"
   ],
   "note": "Proved where elements that are published as they are have values of their data types, and route distinguishers have eight octets. False otherwise: an unknown element that is published as it is is a panic, and a route distinguisher of another length as text is an error."
  },
  {
   "property": "C237",
   "status": "proved",
   "theorems": [
    "Verif.Props.c237_single",
    "Verif.Props.c237_coalesce",
    "Verif.Props.c237_coalesce_none",
    "Verif.Props.c237_multi",
    "Verif.Props.c237_segment"
   ],
   "note": ""
  },
  {
   "property": "C238",
   "status": "partial",
   "theorems": [
    "Verif.Props.c238_numbers_partial",
    "Verif.Props.c238_missing",
    "Verif.Props.c238_large_disproved"
   ],
   "note": "Proved for numbers less than 2^63 of elements without names for their values. Counters from 2^63 are published as negative numbers."
  },
  {
   "property": "C239",
   "status": "partial",
   "theorems": [
    "Verif.Props.c239_seconds_partial",
    "Verif.Props.c239_millis_disproved"
   ],
   "note": "What is published is always the number of whole seconds; times that differ in their milliseconds have one text."
  },
  {
   "property": "C24",
   "status": "partial",
   "theorems": [
    "Verif.Props.c24_wait",
    "Verif.Props.c24_progress",
    "Verif.Props.c24_ipfix_partial",
    "Verif.Props.c24_disproved"
   ],
   "note": "Progress and the unchanged buffer on None are proved in full. An IPFIX message that fails removes exactly its declared length, but five octets when it declares fewer than five (c24_disproved)."
  },
  {
   "property": "C240",
   "status": "partial",
   "theorems": [
    "Verif.Props.c240_records_partial",
    "Verif.Props.c240_netflow_partial",
    "Verif.Props.c240_alone_disproved"
   ],
   "note": "Proved for packets of which all records are converted. False otherwise: one record that fails loses the others of its packet."
  },
  {
   "property": "C241",
   "status": "partial",
   "theorems": [
    "Verif.Props.c241_map_partial",
    "Verif.Props.c241_occurrences_disproved"
   ],
   "note": "Proved for elements whose key no other has. Two occurrences of an element have the same key, and the last replaces the first."
  },
  {
   "property": "C242",
   "status": "partial",
   "theorems": [
    "Verif.Props.c242_labels_partial",
    "Verif.Props.c242_number_disproved",
    "Verif.Props.c242_top_disproved"
   ],
   "note": "Proved for the entries of places 2 to 10 and mplsLabelStackSection, with the 24 bits of the entry. False otherwise: the number is that of the entry and not of the label, and mplsTopLabelStackSection is refused."
  },
  {
   "property": "C243",
   "status": "partial",
   "theorems": [
    "Verif.Props.c243_as_path",
    "Verif.Props.c243_four_octets_disproved",
    "Verif.Props.c243_aggregator_disproved"
   ],
   "note": "Proved for putting together the two paths. False for when it is to be done: AS4_PATH is used with an AS_PATH of four octets, and whatever AGGREGATOR has."
  },
  {
   "property": "C244",
   "status": "proved",
   "theorems": [
    "Verif.Props.c244_path_read_back",
    "Verif.Props.c244_published"
   ],
   "note": "For all paths, with sets."
  },
  {
   "property": "C245",
   "status": "partial",
   "theorems": [
    "Verif.Props.c245_routes_partial",
    "Verif.Props.c245_two_attributes_disproved",
    "Verif.Props.c245_other_families_disproved",
    "Verif.Props.c245_labels_disproved"
   ],
   "note": "Proved for updates with at most one MP_REACH_NLRI and one MP_UNREACH_NLRI of families of prefixes, with the top label. False otherwise: of several such attributes all but the last are lost, of other families one message without route is published, and of a stack of labels the top one only."
  },
  {
   "property": "C246",
   "status": "partial",
   "theorems": [
    "Verif.Props.c246_end_of_rib",
    "Verif.Props.c246_unknown_family_disproved"
   ],
   "note": "Proved for the families that are known. An empty MP_UNREACH_NLRI of a family that is not known is not published as the end of a RIB."
  },
  {
   "property": "C247",
   "status": "partial",
   "theorems": [
    "Verif.Props.c247_attributes",
    "Verif.Props.c247_withdrawals_disproved"
   ],
   "note": "Proved that all messages of an update have its attributes, of each the last one. False for routes that are withdrawn, which have them too."
  },
  {
   "property": "C248",
   "status": "partial",
   "theorems": [
    "Verif.Props.c248_statistics",
    "Verif.Props.c248_unknown_disproved"
   ],
   "note": "Proved for all counters that are known. The value of others is published as 0."
  },
  {
   "property": "C249",
   "status": "proved",
   "theorems": [
    "Verif.Props.c249_tables"
   ],
   "note": "From the code of the type and the octet of flags as they are on the wire."
  },
  {
   "property": "C25",
   "status": "partial",
   "theorems": [
    "Verif.Props.c25_ipfix_partial",
    "Verif.Props.c25_netflow_partial",
    "Verif.Props.c25_undefined",
    "Verif.Props.c25_undefined_message",
    "Verif.Props.c25_failed",
    "Verif.Props.c25_disproved"
   ],
   "note": "Proved for every history in which no message of that protocol failed, and that an undefined id is an error that changes no template. False in general: a message that fails at an undefined data set is abandoned, so that a template behind that set is not learnt and later data is read with the older one (c25_disproved). c25_failed says what a failed message leaves behind."
  },
  {
   "property": "C250",
   "status": "partial",
   "theorems": [
    "Verif.Props.c250_refused",
    "Verif.Props.c250_no_time_disproved"
   ],
   "note": "Proved exactly which messages are refused. Messages of peers without a time are among them, which RFC 7854 allows."
  },
  {
   "property": "C251",
   "status": "partial",
   "theorems": [
    "Verif.Props.c251_time",
    "Verif.Props.c251_read_back",
    "Verif.Props.c251_leap_disproved"
   ],
   "note": "Proved for all times but leap seconds, which the parser accepts and which have seven digits."
  },
  {
   "property": "C252",
   "status": "proved",
   "theorems": [
    "Verif.Props.c252_distinguishers"
   ],
   "note": "For all route distinguishers of the four types."
  },
  {
   "property": "C253",
   "status": "partial",
   "theorems": [
    "Verif.Props.c253_communities",
    "Verif.Props.c253_extended_disproved",
    "Verif.Props.c253_blanks_disproved",
    "Verif.Props.c253_numbers_disproved"
   ],
   "note": "Proved for communities and large communities. False for extended communities: those of AS numbers of two and of four octets are published alike, and some have blanks in their text. Well-known communities are published by name."
  },
  {
   "property": "C254",
   "status": "partial",
   "theorems": [
    "Verif.Props.c254_elements_partial",
    "Verif.Props.c254_strings_disproved"
   ],
   "note": "Proved which elements are published. Of several strings all but the last are lost."
  },
  {
   "property": "C255",
   "status": "partial",
   "theorems": [
    "Verif.Props.c255_records",
    "Verif.Props.c255_numbers_disproved"
   ],
   "note": "Proved for the record, its place and the fields of the context. All messages have the number 0."
  },
  {
   "property": "C256",
   "status": "proved",
   "theorems": [
    "Verif.Props.c256_peers"
   ],
   "note": "For headers with times; those without are refused, see C250."
  },
  {
   "property": "C257",
   "status": "proved",
   "theorems": [
    "Verif.Props.c257_registered",
    "Verif.Props.c257_given"
   ],
   "note": "By induction on runs, over any number of sockets, peers and connections. Sending to a task fails if and only if the task has ended."
  },
  {
   "property": "C258",
   "status": "partial",
   "theorems": [
    "Verif.Props.c258_one_socket_partial",
    "Verif.Props.c258_other_sockets_disproved"
   ],
   "note": "Proved for one socket. False for more: after a connection is accepted on one socket, none is on that socket until one has come in on all the others, because the set of futures is made anew only when it is empty."
  },
  {
   "property": "C259",
   "status": "proved",
   "theorems": [
    "Verif.Props.c259_no_dynamic"
   ],
   "note": "By induction on runs."
  },
  {
   "property": "C26",
   "status": "proved",
   "theorems": [
    "Verif.Props.c26_exact",
    "Verif.Props.c26_independent",
    "Verif.Props.c26_incomplete"
   ],
   "note": ""
  },
  {
   "property": "C260",
   "status": "partial",
   "theorems": [
    "Verif.Props.c260_dynamic_partial",
    "Verif.Props.c260_again_disproved"
   ],
   "note": "Proved for the first connection. A dynamic peer that fails before OpenConfirm stays with the supervisor and is not known to the listener: all later connections from its address are dropped."
  },
  {
   "property": "C261",
   "status": "partial",
   "theorems": [
    "Verif.Props.c261_held_up_disproved"
   ],
   "note": "False: while a dynamic peer is waited for, the listener accepts nothing, whatever comes in."
  },
  {
   "property": "C262",
   "status": "partial",
   "theorems": [
    "Verif.Props.c262_keys",
    "Verif.Props.c262_one_peer",
    "Verif.Props.c262_stopped_partial",
    "Verif.Props.c262_removed_disproved"
   ],
   "note": "Proved for keys, and for tasks that are not aborted. If what remove_peer returns is dropped, the task is aborted and may never take the message that stops it."
  },
  {
   "property": "C263",
   "status": "proved",
   "theorems": [
    "Verif.Props.c263_read_back"
   ],
   "note": "For values that fit their types: numbers of their widths, fields that augment are objects with none of the names of fields, and of an old wrapper or subscription without notification or trigger they have no such member. Dates are any that can be read back."
  },
  {
   "property": "C264",
   "status": "partial",
   "theorems": [
    "Verif.Props.c264_again_partial",
    "Verif.Props.c264_again_disproved"
   ],
   "note": "Proved unless a trigger or a notification of an old wrapper is left over where none was read. An old wrapper with a notification that is refused and a good one is read without, and after it has been written it is read with the good one."
  },
  {
   "property": "C265",
   "status": "partial",
   "theorems": [
    "Verif.Props.c265_envelope_keeps",
    "Verif.Props.c265_legacy_keeps_partial",
    "Verif.Props.c265_terminated_keeps",
    "Verif.Props.c265_update_keeps",
    "Verif.Props.c265_started_keeps_partial",
    "Verif.Props.c265_keeps_disproved"
   ],
   "note": "Proved for members that are not known, with the value that comes last. A notification of an old wrapper, or a trigger, that cannot be read is lost without an error; names of encodings and transports that are not known are lost too."
  },
  {
   "property": "C266",
   "status": "partial",
   "theorems": [
    "Verif.Props.c266_envelope_carries",
    "Verif.Props.c266_legacy_carries_partial",
    "Verif.Props.c266_legacy_carries_disproved"
   ],
   "note": "Proved for wrappers; of old wrappers only that what is read is one of the members. An old wrapper whose notification is wrong is read without it, where the new one is refused."
  },
  {
   "property": "C267",
   "status": "partial",
   "theorems": [
    "Verif.Props.c267_envelope_order",
    "Verif.Props.c267_legacy_order_partial",
    "Verif.Props.c267_legacy_order_disproved"
   ],
   "note": "Proved for wrappers, and for old ones with one notification at most. Of an old wrapper with two notifications the first is read."
  },
  {
   "property": "C268",
   "status": "proved",
   "theorems": [
    "Verif.Props.c268_drafts_alike",
    "Verif.Props.c268_both_refused"
   ],
   "note": ""
  },
  {
   "property": "C269",
   "status": "partial",
   "theorems": [
    "Verif.Props.c269_converted",
    "Verif.Props.c269_converted_iff",
    "Verif.Props.c269_converted_disproved"
   ],
   "note": "Proved for what is converted, and that this is exactly what is filtered by a path. Namespaces of prefixes of paths are dropped, so that paths to different nodes are told as the same; a subscription to a stream without filter is refused as one with a filter by reference of no name."
  },
  {
   "property": "C27",
   "status": "partial",
   "theorems": [
    "Verif.Props.c27_template_partial",
    "Verif.Props.c27_options_partial",
    "Verif.Props.c27_templateSet_partial",
    "Verif.Props.c27_optionsSet_partial",
    "Verif.Props.c27_disproved"
   ],
   "note": "Proved for all records with an id from 256, at most 65535 fields and specifiers that the registry knows. False for elements of unknown vendors whose id has the top bit, and for ids below 256, which the types allow (c27_disproved)."
  },
  {
   "property": "C270",
   "status": "partial",
   "theorems": [
    "Verif.Props.c270_target_partial",
    "Verif.Props.c270_target_disproved",
    "Verif.Props.c270_datastore_only"
   ],
   "note": "Proved for all members but one. The filter of a datastore by a subtree is read by a name without its module: by the one of RFC 8641 it is not part of the target."
  },
  {
   "property": "C271",
   "status": "partial",
   "theorems": [
    "Verif.Props.c271_media_partial",
    "Verif.Props.c271_media_disproved",
    "Verif.Props.c271_refused"
   ],
   "note": "Proved for documents with each name once. With a name twice a document is refused in JSON and read in CBOR. The readers of octets are parameters."
  },
  {
   "property": "C272",
   "status": "partial",
   "theorems": [
    "Verif.Props.c272_read_back_partial",
    "Verif.Props.c272_publishers_disproved",
    "Verif.Props.c272_time_disproved",
    "Verif.Props.c272_absent_disproved"
   ],
   "note": "Proved for filters by name, by path or by subtree, and for whole seconds, one publisher at most, and lists that are absent or not empty. Of more publishers only the first has its namespace declared, and the others are lost; parts of seconds, identities that are not known, and empty lists are not read back. Subtrees have prefixed elements that declare nothing themselves (see C281). The clock is a parameter that writes and reads times."
  },
  {
   "property": "C273",
   "status": "proved",
   "theorems": [
    "Verif.Props.c273_unknown_children"
   ],
   "note": "For subscriptions that C272 reads back; the elements are inserted anywhere between the children that are written."
  },
  {
   "property": "C274",
   "status": "partial",
   "theorems": [
    "Verif.Props.c274_periodic_partial",
    "Verif.Props.c274_onChange_partial",
    "Verif.Props.c274_lost_disproved"
   ],
   "note": "Proved for any order and number of known terms. From the first element that is not known on, everything up to the end of the terms is lost without an error."
  },
  {
   "property": "C275",
   "status": "partial",
   "theorems": [
    "Verif.Props.c275_in_order_partial",
    "Verif.Props.c275_order_disproved"
   ],
   "note": "Proved for the order of name, revision and version, with any other elements behind them. If the version comes before the revision, then the revision is lost without an error."
  },
  {
   "property": "C276",
   "status": "partial",
   "theorems": [
    "Verif.Props.c276_by_name_partial",
    "Verif.Props.c276_namespace_disproved"
   ],
   "note": "Only the name of an identity is looked at: an identity of any other module with the same name counts as the one that is known."
  },
  {
   "property": "C277",
   "status": "partial",
   "theorems": [
    "Verif.Props.c277_filters_partial",
    "Verif.Props.c277_stream_disproved"
   ],
   "note": "Proved for filters of datastores, and for filters of streams behind their names. A filter of a stream before its name is refused, because the name is then expected in the namespace of YANG-Push."
  },
  {
   "property": "C278",
   "status": "proved",
   "theorems": [
    "Verif.Props.c278_any_order"
   ],
   "note": "For subscriptions that C272 reads back."
  },
  {
   "property": "C279",
   "status": "partial",
   "theorems": [
    "Verif.Props.c279_refused_partial",
    "Verif.Props.c279_both_disproved"
   ],
   "note": "Documents without a number or a target, or with the name of a filter of a datastore but no datastore, are refused. A document with both a datastore and a stream is read as if there was no stream."
  },
  {
   "property": "C28",
   "status": "proved",
   "theorems": [
    "Verif.Props.c28_noFault",
    "Verif.Props.c28_drains"
   ],
   "note": ""
  },
  {
   "property": "C280",
   "status": "partial",
   "theorems": [
    "Verif.Props.c280_prefixes_partial",
    "Verif.Props.c280_read_back_partial",
    "Verif.Props.c280_letters_disproved",
    "Verif.Props.c280_twice_disproved"
   ],
   "note": "Proved for prefixes that are identifiers of ASCII, each of another namespace when they are written. Prefixes with other letters are not found, and of two prefixes of one namespace one is not written."
  },
  {
   "property": "C281",
   "status": "partial",
   "theorems": [
    "Verif.Props.c281_kept_partial",
    "Verif.Props.c281_read_back_partial",
    "Verif.Props.c281_bare_disproved",
    "Verif.Props.c281_nested_disproved"
   ],
   "note": "Proved for contents whose elements declare no namespaces themselves, that begin and end with elements, whose prefixes are all declared, and of which no element has the name of the filter; for reading back, all elements have prefixes, each of another namespace. A filter whose elements have no prefix is read, but then cannot be written in a subscription to a datastore, and is lost when written in one to a stream. Content with an element named as the filter, of any namespace, is cut off there without an error."
  },
  {
   "property": "C282",
   "status": "partial",
   "theorems": [
    "Verif.Props.c282_read_partial",
    "Verif.Props.c282_read_back_partial",
    "Verif.Props.c282_empty_disproved"
   ],
   "note": "Proved for filters as they are written, name first, with paths and subtrees as in C272. A set without filters that comes as an empty tag, as servers without filters may send it, is refused, alone and within other elements."
  },
  {
   "property": "C283",
   "status": "partial",
   "theorems": [
    "Verif.Props.c283_got_partial",
    "Verif.Props.c283_reference_partial",
    "Verif.Props.c283_absent",
    "Verif.Props.c283_number_disproved",
    "Verif.Props.c283_no_filters_disproved",
    "Verif.Props.c283_before_disproved"
   ],
   "note": "Proved for answers whose first subscription is the one of the number, as it would be written, with parts as in C272. False in general: the first subscription of the answer is taken whatever its number; anything in front of the subscriptions in the data makes the client fail; and so do filters that come as an empty tag, if the subscription refers to one."
  },
  {
   "property": "C284",
   "status": "proved",
   "theorems": [
    "Verif.Props.c284_text",
    "Verif.Props.c284_trimmed",
    "Verif.Props.c284_trimmed_all",
    "Verif.Props.c284_renamed",
    "Verif.Props.c284_array"
   ],
   "note": "For fields that select one element, and for arrays without a default. How values of elements are shown as text is a parameter."
  },
  {
   "property": "C285",
   "status": "partial",
   "theorems": [
    "Verif.Props.c285_numbers",
    "Verif.Props.c285_variants",
    "Verif.Props.c285_or",
    "Verif.Props.c285_nested_numbers",
    "Verif.Props.c285_status_partial",
    "Verif.Props.c285_status_disproved"
   ],
   "note": "Proved but for the variants of forwarding statuses, which go by the places of the entries in the registry: they are those of the first two bits if the entries are in order from zero without gaps, and others otherwise. The code that is generated is taken for the functions that it defines; with two variants of the same name it does not compile."
  },
  {
   "property": "C286",
   "status": "partial",
   "theorems": [
    "Verif.Props.c286_numbers",
    "Verif.Props.c286_binary_partial",
    "Verif.Props.c286_zero_disproved"
   ],
   "note": "Proved but for a single zero before b, which is taken for the form with 0b in front, without digits, so that the entry is passed over."
  },
  {
   "property": "C287",
   "status": "partial",
   "theorems": [
    "Verif.Props.c287_names",
    "Verif.Props.c287_identifier_partial",
    "Verif.Props.c287_empty_disproved",
    "Verif.Props.c287_same_disproved"
   ],
   "note": "Proved for names with a letter or digit before the first colon. Names without one become empty, for which no code can be generated, and names that differ in punctuation or white space only, or behind a colon, become the same, so that the code does not compile."
  },
  {
   "property": "C288",
   "status": "proved",
   "theorems": [
    "Verif.Props.c288_record",
    "Verif.Props.c288_reserved",
    "Verif.Props.c288_described",
    "Verif.Props.c288_passed",
    "Verif.Props.c288_entries",
    "Verif.Props.c288_first"
   ],
   "note": "What becomes of links in descriptions is a parameter. That reserved entries are told apart is part of the name, which is otherwise as in C287."
  },
  {
   "property": "C289",
   "status": "partial",
   "theorems": [
    "Verif.Props.c289_parts_partial",
    "Verif.Props.c289_paragraphs_disproved"
   ],
   "note": "Proved that all parts are there in their order. Paragraphs are put together without a line or a space between them, because the flag of the first one is never cleared."
  },
  {
   "property": "C29",
   "status": "proved",
   "theorems": [
    "Verif.Props.c29_wait",
    "Verif.Props.c29_message",
    "Verif.Props.c29_error",
    "Verif.Props.c29_ends",
    "Verif.Props.c29_frames",
    "Verif.Props.c29_no_panic"
   ],
   "note": ""
  },
  {
   "property": "C290",
   "status": "proved",
   "theorems": [
    "Verif.Props.c290_element",
    "Verif.Props.c290_optional",
    "Verif.Props.c290_passed",
    "Verif.Props.c290_elements"
   ],
   "note": "What becomes of links in descriptions is a parameter; descriptions are as in C289."
  },
  {
   "property": "C291",
   "status": "proved",
   "theorems": [
    "Verif.Props.c291_external",
    "Verif.Props.c291_document",
    "Verif.Props.c291_title",
    "Verif.Props.c291_registries",
    "Verif.Props.c291_reasons"
   ],
   "note": "If an entry of forwarding has no registry of reasons then the code generator panics, which is none in the model."
  },
  {
   "property": "C292",
   "status": "proved",
   "theorems": [
    "Verif.Props.c292_all",
    "Verif.Props.c292_part",
    "Verif.Props.c292_end"
   ],
   "note": "What the client of Kafka gives after a reconnection is in the list of events: messages that it loses or gives again are not the concern of the actor."
  },
  {
   "property": "C293",
   "status": "partial",
   "theorems": [
    "Verif.Props.c293_bounded",
    "Verif.Props.c293_attempts",
    "Verif.Props.c293_counted",
    "Verif.Props.c293_command_disproved"
   ],
   "note": "Proved but for commands: while brokers are down, or after a fatal error, the actor sleeps and reconnects in a loop that does not look at commands, so that it cannot be stopped until it has succeeded."
  },
  {
   "property": "C294",
   "status": "partial",
   "theorems": [
    "Verif.Props.c294_waits",
    "Verif.Props.c294_ends",
    "Verif.Props.c294_lists_partial",
    "Verif.Props.c294_lists_disproved"
   ],
   "note": "Proved for subscriptions, removals and disconnections, whose replies wait for room. Local addresses and connected peers are sent only if there is room: with more actors than the buffer of commands has places the lists can lack all that are too many, without an error."
  },
  {
   "property": "C295",
   "status": "partial",
   "theorems": [
    "Verif.Props.c295_start",
    "Verif.Props.c295_subscribe",
    "Verif.Props.c295_unsubscribe",
    "Verif.Props.c295_disconnect",
    "Verif.Props.c295_shutdown",
    "Verif.Props.c295_reported_disproved"
   ],
   "note": "Proved but for what unsubscribing reports: the supervisor takes any answer of an actor as success, so that an actor is reported also if it had no such subscription."
  },
  {
   "property": "C296",
   "status": "partial",
   "theorems": [
    "Verif.Props.c296_starts",
    "Verif.Props.c296_publishes_partial",
    "Verif.Props.c296_publishes_disproved"
   ],
   "note": "Proved but for endpoints for enriched flows of a group without aggregation: their publishers are only made together with an aggregation, so that nothing is published, and there is no error."
  },
  {
   "property": "C297",
   "status": "partial",
   "theorems": [
    "Verif.Props.c297_once",
    "Verif.Props.c297_alone_partial",
    "Verif.Props.c297_all_disproved"
   ],
   "note": "Proved for groups with one endpoint. Endpoints of a group read clones of one receiver of async_channel, which gives each message to one of them only: with two endpoints each misses what the other gets."
  },
  {
   "property": "C298",
   "status": "proved",
   "theorems": [
    "Verif.Props.c298_within",
    "Verif.Props.c298_reaches"
   ],
   "note": "Enrichment actors of the first endpoints of a group get operations from the inputs of later endpoints of the group again."
  },
  {
   "property": "C299",
   "status": "partial",
   "theorems": [
    "Verif.Props.c299_goes_on_partial",
    "Verif.Props.c299_raw_disproved",
    "Verif.Props.c299_enriched_disproved"
   ],
   "note": "Proved for flows and BMP with an endpoint that publishes, and for notifications with an endpoint for telemetry. A collection of notifications with endpoints for raw messages only waits for an empty set of validations, which is ready at once, so that it ends with success as soon as it has started; so does one for enriched flows without aggregation and inputs."
  },
  {
   "property": "C30",
   "status": "proved",
   "theorems": [
    "Verif.Props.c30_chunks",
    "Verif.Props.c30_two"
   ],
   "note": ""
  },
  {
   "property": "C300",
   "status": "partial",
   "theorems": [
    "Verif.Props.c300_published",
    "Verif.Props.c300_record",
    "Verif.Props.c300_plain_partial",
    "Verif.Props.c300_writer_disproved"
   ],
   "note": "Proved for raw notifications. Records of raw flows and of BMP messages do not tell the writer, although it is configured for their endpoints; those of enriched flows and of telemetry have it from enrichment."
  },
  {
   "property": "C301",
   "status": "partial",
   "theorems": [
    "Verif.Props.c301_final",
    "Verif.Props.c301_goes_on",
    "Verif.Props.c301_fails",
    "Verif.Props.c301_interrupt_disproved",
    "Verif.Props.c301_others_disproved"
   ],
   "note": "Proved but for the last sentence: when it is interrupted, or when one collection fails, the collector leaves its loop without telling the actors of collections that run to stop, although it logs that it does; what their publishers have queued can be lost. That a task is dropped with the runtime is not modelled."
  },
  {
   "property": "C302",
   "status": "partial",
   "theorems": [
    "Verif.Props.c302_task",
    "Verif.Props.c302_supervisor_partial",
    "Verif.Props.c302_supervisor_disproved"
   ],
   "note": "Proved if a task has ended, and for BMP. If the supervisor of flows or of notifications has ended only publishers are told: actors before them, inputs and the cache of schemas are not, and see at most that their channels of commands are closed."
  },
  {
   "property": "C31",
   "status": "partial",
   "theorems": [
    "Verif.Props.c31_flags",
    "Verif.Props.c31_octets_partial",
    "Verif.Props.c31_routes_partial",
    "Verif.Props.c31_locRib_partial",
    "Verif.Props.c31_direction_disproved",
    "Verif.Props.c31_locRib_disproved",
    "Verif.Props.c31_second_disproved"
   ],
   "note": "False as stated. A Peer Up fixes ADD-PATH for both directions of a peer according to its own direction bit, so adj-rib-out messages after a Peer Up without that bit are read with the wrong setting (c31_direction_disproved). A further Peer Up of a Loc-RIB instance keeps ADD-PATH of the families that it does not mention (c31_locRib_disproved), and so does one for the BGP identifier of its OPEN, if this differs from the header (c31_second_disproved). Proved: for every other message with the direction of the Peer Up, ADD-PATH is on exactly if negotiated, for all octets in version 3, and for all well-formed UPDATEs in versions 3 and 4."
  },
  {
   "property": "C32",
   "status": "partial",
   "theorems": [
    "Verif.Props.c32_identity",
    "Verif.Props.c32_others_partial",
    "Verif.Props.c32_down_partial",
    "Verif.Props.c32_termination",
    "Verif.Props.c32_other_disproved",
    "Verif.Props.c32_down_disproved"
   ],
   "note": "False as stated. A Peer Up whose OPEN has another BGP identifier than its header changes the settings of the peer with the identifier of the OPEN (c32_other_disproved), and the Peer Down of that session does not remove them (c32_down_disproved). Proved: without such Peer Ups, all that comes out for a peer is as if the others were not there, and after its Peer Down as from a new codec. Termination is proved in full."
  },
  {
   "property": "C33",
   "status": "partial",
   "theorems": [
    "Verif.Props.c33_coherent_partial",
    "Verif.Props.c33_disproved",
    "Verif.Props.c33_dropped_disproved"
   ],
   "note": "Holds in calm executions: no operation is dropped while a message is being written and no start command comes while an incoming connection waits for its open delay. Each of the two can leave the FSM in a state without connection (c33_disproved, c33_dropped_disproved)."
  },
  {
   "property": "C34",
   "status": "partial",
   "theorems": [
    "Verif.Props.c34_handshake",
    "Verif.Props.c34_established_partial",
    "Verif.Props.c34_update_partial",
    "Verif.Props.c34_update_disproved"
   ],
   "note": "The handshake is proved of every connection in every execution; that the reported state is Established only with such a connection, in calm executions. An UPDATE received in OpenSent is reported, with the state Idle (c34_update_disproved)."
  },
  {
   "property": "C35",
   "status": "partial",
   "theorems": [
    "Verif.Props.c35_hold_partial",
    "Verif.Props.c35_keepalive",
    "Verif.Props.c35_update_disproved",
    "Verif.Props.c35_zero_disproved"
   ],
   "note": "The timer runs with the smaller hold time and KEEPALIVE restarts it; an UPDATE does not (c35_update_disproved), and with a hold time of zero the initial timer of 240 s stays on and ends the session (c35_zero_disproved)."
  },
  {
   "property": "C36",
   "status": "partial",
   "theorems": [
    "Verif.Props.c36_accepted_partial",
    "Verif.Props.c36_session_partial",
    "Verif.Props.c36_end_of_rib",
    "Verif.Props.c36_order_disproved",
    "Verif.Props.c36_withdraw_disproved"
   ],
   "note": "Attributes after the second one of ORIGIN and AS_PATH are not looked at: the usual order ORIGIN, AS_PATH, NEXT_HOP ends the session (c36_order_disproved), and so does an UPDATE that only withdraws routes (c36_withdraw_disproved). The UPDATE messages that are accepted are those of the other theorems."
  },
  {
   "property": "C37",
   "status": "partial",
   "theorems": [
    "Verif.Props.c37_strongest_partial",
    "Verif.Props.c37_order_partial",
    "Verif.Props.c37_normal_partial",
    "Verif.Props.c37_family_disproved",
    "Verif.Props.c37_ls_disproved",
    "Verif.Props.c37_otc_disproved",
    "Verif.Props.c37_unknown_disproved"
   ],
   "note": "Holds without errors of ONLY_TO_CUSTOMER, unknown attributes and BGP-LS NLRI; the family that is reset depends on the order (c37_family_disproved), BGP-LS is reported as another family, ONLY_TO_CUSTOMER errors only discard the attribute, an unknown attribute that exceeds the list is reported as Normal."
  },
  {
   "property": "C38",
   "status": "partial",
   "theorems": [
    "Verif.Props.c38_single_partial",
    "Verif.Props.c38_reversed_partial",
    "Verif.Props.c38_disproved"
   ],
   "note": "Commands that wait are executed in reverse order (c38_reversed_partial, c38_disproved); in order if none is issued while another waits."
  },
  {
   "property": "C39",
   "status": "partial",
   "theorems": [
    "Verif.Props.c39_agree_partial",
    "Verif.Props.c39_disproved"
   ],
   "note": "Holds without open delay; with one, each end can keep what the other closes (c39_disproved)."
  },
  {
   "property": "C40",
   "status": "partial",
   "theorems": [
    "Verif.Props.c40_retry_partial",
    "Verif.Props.c40_disproved"
   ],
   "note": "False: after a failed first attempt the peer never tries again (c40_disproved). A connection that fails in OpenSent is retried."
  },
  {
   "property": "C41",
   "status": "proved",
   "theorems": [
    "Verif.Props.c41_reduce_columns",
    "Verif.Props.c41_order_irrelevant",
    "Verif.Props.c41_order_irrelevant_u64",
    "Verif.Props.c41_supported"
   ],
   "note": ""
  },
  {
   "property": "C42",
   "status": "partial",
   "theorems": [
    "Verif.Props.c42_unicast",
    "Verif.Props.c42_vpn_partial",
    "Verif.Props.c42_labeled_partial",
    "Verif.Props.c42_evpn",
    "Verif.Props.c42_rtm",
    "Verif.Props.c42_labeled_path_disproved",
    "Verif.Props.c42_vpn_long_disproved"
   ],
   "note": "Holds for all families except labeled unicast with a path identifier, which is not written (c42_labeled_path_disproved), and labels+prefix of 249 to 255 bits (c42_vpn_long_disproved); label limit 255 (meaning no limit) not covered by the round trip. BGP-LS NLRI not modelled here."
  },
  {
   "property": "C43",
   "status": "partial",
   "theorems": [
    "Verif.Props.c43_no_fault_partial",
    "Verif.Props.c43_vpn_disproved",
    "Verif.Props.c43_labeled_disproved"
   ],
   "note": "Holds up to 7 (VPN) and 10 (labeled) negotiated labels; beyond that a u8 computation overflows (panics with overflow checks, c43_vpn_disproved and c43_labeled_disproved)."
  },
  {
   "property": "C44",
   "status": "partial",
   "theorems": [
    "Verif.Props.c44_transitive_partial",
    "Verif.Props.c44_transitive6",
    "Verif.Props.c44_disproved"
   ],
   "note": "False for non-transitive four-octet-AS and transitive opaque communities (c44_disproved); holds for all the others."
  },
  {
   "property": "C45",
   "status": "partial",
   "theorems": [
    "Verif.Props.c45_roundtrip_partial",
    "Verif.Props.c45_roundtrip6",
    "Verif.Props.c45_large",
    "Verif.Props.c45_no_fault",
    "Verif.Props.c45_sourceAs_disproved"
   ],
   "note": "Source AS communities read back as Route Target (c45_sourceAs_disproved); all others round-trip."
  },
  {
   "property": "C46",
   "status": "partial",
   "theorems": [
    "Verif.Props.c46_roundtrip",
    "Verif.Props.c46_roundtrip_vpn",
    "Verif.Props.c46_decoded_assigned",
    "Verif.Props.c46_no_fault_partial",
    "Verif.Props.c46_fault_disproved"
   ],
   "note": "Round trip holds. No panic holds for NLRI at offset 2 or later, as in any message; a reserved NLRI type in the first octets of a buffer underflows an offset (c46_fault_disproved)."
  },
  {
   "property": "C47",
   "status": "partial",
   "theorems": [
    "Verif.Props.c47_roundtrip_partial",
    "Verif.Props.c47_attribute_partial",
    "Verif.Props.c47_no_fault",
    "Verif.Props.c47_linkProtection_disproved",
    "Verif.Props.c47_forwarding_disproved",
    "Verif.Props.c47_routeTag_disproved",
    "Verif.Props.c47_extRouteTag_disproved"
   ],
   "note": "False of four TLV kinds: link protection (one octet short), OSPF forwarding address (one octet long), route tags and extended route tags (never read back); all other kinds round-trip and no input panics."
  },
  {
   "property": "C48",
   "status": "proved",
   "theorems": [
    "Verif.Props.c48_roundtrip",
    "Verif.Props.c48_roundtrip_tlv",
    "Verif.Props.c48_no_fault"
   ],
   "note": ""
  },
  {
   "property": "C49",
   "status": "partial",
   "theorems": [
    "Verif.Props.c49_roundtrip_partial",
    "Verif.Props.c49_long_disproved",
    "Verif.Props.c49_unknown_reach_disproved",
    "Verif.Props.c49_hop_disproved",
    "Verif.Props.c49_segment_disproved"
   ],
   "note": "Holds for attributes whose value fits the length field of their flags, without MP_REACH_NLRI of an unknown family (length one too large, c49_unknown_reach_disproved), an IPv4 next hop with a link-local address (c49_hop_disproved), empty or over-long AS path segments (c49_segment_disproved); a value over 255 octets without the extended-length flag is written with a wrong length (c49_long_disproved). Element restrictions as in C42, C45, C46, C47."
  },
  {
   "property": "C50",
   "status": "partial",
   "theorems": [
    "Verif.Props.c50_no_fault_partial",
    "Verif.Props.c50_disproved"
   ],
   "note": "Holds for at most 7 (VPN) or 10 (labeled unicast) negotiated labels; beyond that a u8 computation overflows (c50_disproved)."
  },
  {
   "property": "C51",
   "status": "proved",
   "theorems": [
    "Verif.Props.c51_framing"
   ],
   "note": ""
  },
  {
   "property": "C52",
   "status": "proved",
   "theorems": [
    "Verif.Props.c52_flags"
   ],
   "note": ""
  },
  {
   "property": "C53",
   "status": "proved",
   "theorems": [
    "Verif.Props.c53_as_width"
   ],
   "note": ""
  },
  {
   "property": "C54",
   "status": "partial",
   "theorems": [
    "Verif.Props.c54_no_fault_partial",
    "Verif.Props.c54_disproved"
   ],
   "note": "Holds for at most 7 (VPN) or 10 (labeled unicast) negotiated labels; beyond that a u8 computation overflows (c54_disproved)."
  },
  {
   "property": "C55",
   "status": "partial",
   "theorems": [
    "Verif.Props.c55_before_partial",
    "Verif.Props.c55_disproved"
   ],
   "note": "False: reading resumes inside the malformed capability (c55_disproved); capabilities before the first malformed one are kept."
  },
  {
   "property": "C56",
   "status": "partial",
   "theorems": [
    "Verif.Props.c56_partial",
    "Verif.Props.c56_flags_disproved",
    "Verif.Props.c56_last_disproved"
   ],
   "note": "False: an attribute with wrong flags takes the next attribute with it (c56_flags_disproved) or fails the message (c56_last_disproved). Holds when every malformed attribute is one that is skipped exactly, which is proved of ORIGIN with an undefined value and of AS_PATH starting with an undefined segment type."
  },
  {
   "property": "C57",
   "status": "partial",
   "theorems": [
    "Verif.Props.c57_down_partial",
    "Verif.Props.c57_stop",
    "Verif.Props.c57_disproved"
   ],
   "note": "Holds unless the stop command is dropped while its NOTIFICATION is being written (c57_disproved)."
  },
  {
   "property": "C58",
   "status": "partial",
   "theorems": [
    "Verif.Props.c58_survives_partial",
    "Verif.Props.c58_disproved",
    "Verif.Props.c58_write_disproved"
   ],
   "note": "Holds while there is no second connection and writes succeed; an OPEN on a second connection (c58_disproved) or a failing write (c58_write_disproved) ends the task."
  },
  {
   "property": "C59",
   "status": "partial",
   "theorems": [
    "Verif.Props.c59_reported_partial",
    "Verif.Props.c59_disproved"
   ],
   "note": "Holds without a second connection; with one an UPDATE can get lost (c59_disproved)."
  },
  {
   "property": "C60",
   "status": "partial",
   "theorems": [
    "Verif.Props.c60_collision_partial",
    "Verif.Props.c60_disproved"
   ],
   "note": "One connection is left and the states agree; but the OPEN that revealed the collision can be lost, so the handshake fails (c60_disproved)."
  },
  {
   "property": "C61",
   "status": "partial",
   "theorems": [
    "Verif.Props.c61_open_partial",
    "Verif.Props.c61_asn_partial",
    "Verif.Props.c61_disproved"
   ],
   "note": "Everything but the last clause is proved, for users that do not themselves hand OPEN messages to the peer; capabilities repeated by the neighbour are repeated (c61_disproved)."
  },
  {
   "property": "C62",
   "status": "partial",
   "theorems": [
    "Verif.Props.c62_notification_partial",
    "Verif.Props.c62_disproved"
   ],
   "note": "Holds for header and OPEN errors in OpenSent and OpenConfirm when the NOTIFICATION can be written; in Established no NOTIFICATION is sent (c62_disproved)."
  },
  {
   "property": "C63",
   "status": "proved",
   "theorems": [
    "Verif.Props.c63_expiry"
   ],
   "note": ""
  },
  {
   "property": "C64",
   "status": "proved",
   "theorems": [
    "Verif.Props.c64_period",
    "Verif.Props.c64_tick"
   ],
   "note": ""
  },
  {
   "property": "C65",
   "status": "partial",
   "theorems": [
    "Verif.Props.c65_sent_partial",
    "Verif.Props.c65_stopped",
    "Verif.Props.c65_disproved"
   ],
   "note": "Sent on the session, and dropped once stopped; but sent in every other state with a connection too (c65_disproved)."
  },
  {
   "property": "C66",
   "status": "partial",
   "theorems": [
    "Verif.Props.c66_wait_partial",
    "Verif.Props.c66_disproved"
   ],
   "note": "Holds while the peer only waits; a connection attempt under way is lost (c66_disproved)."
  },
  {
   "property": "C67",
   "status": "partial",
   "theorems": [
    "Verif.Props.c67_accept_partial",
    "Verif.Props.c67_disproved"
   ],
   "note": "Holds while no second connection is there; one that has ended still counts (c67_disproved)."
  },
  {
   "property": "C68",
   "status": "partial",
   "theorems": [
    "Verif.Props.c68_partial",
    "Verif.Props.c68_absent_disproved",
    "Verif.Props.c68_raw_disproved"
   ],
   "note": "Holds of every message whose parts fit their fields, except of values that the wire cannot tell from none: time 0, address 0.0.0.0 or ::, route distinguisher 0:0 (c68_absent_disproved), and of raw octets in route mirroring, which are written but not read (c68_raw_disproved)."
  },
  {
   "property": "C69",
   "status": "partial",
   "theorems": [
    "Verif.Props.c69_partial",
    "Verif.Props.c69_negotiated_disproved",
    "Verif.Props.c69_stateless_disproved"
   ],
   "note": "False: eight labels, agreed in a Peer Up (c69_negotiated_disproved) or announced in a v4 route monitoring message (c69_stateless_disproved, one message is enough), overflow a u8. Proved for at most seven labels of VPN and ten of labelled routes."
  },
  {
   "property": "C70",
   "status": "partial",
   "theorems": [
    "Verif.Props.c70_partial",
    "Verif.Props.c70_disproved"
   ],
   "note": "False when a Peer Up has two label counts for one family on both sides: the count that is used is the last one iterated from a hash set, and the same octets withdraw 10.0.0.0/8 in one run and 0.3.1.10/32 in another (c70_disproved). Proved without such Peer Ups."
  },
  {
   "property": "C71",
   "status": "proved",
   "theorems": [
    "Verif.Props.c71_no_trace"
   ],
   "note": ""
  },
  {
   "property": "C72",
   "status": "partial",
   "theorems": [
    "Verif.Props.c72_partial",
    "Verif.Props.c72_pdu_disproved",
    "Verif.Props.c72_trailing_disproved"
   ],
   "note": "Proved for Initiation, Termination and experimental messages. False for v4 route monitoring: of several BGP message TLVs all but one are skipped (c72_pdu_disproved), and so is what follows the BGP message in its TLV (c72_trailing_disproved)."
  },
  {
   "property": "C73",
   "status": "proved",
   "theorems": [
    "Verif.Props.c73_carries"
   ],
   "note": ""
  },
  {
   "property": "C74",
   "status": "partial",
   "theorems": [
    "Verif.Props.c74_partial",
    "Verif.Props.c74_disproved"
   ],
   "note": "Holds of the first message; if the second is wrong the error has the type of the first (c74_disproved)."
  },
  {
   "property": "C75",
   "status": "partial",
   "theorems": [
    "Verif.Props.c75_fixed_partial",
    "Verif.Props.c75_accepts",
    "Verif.Props.c75_variable_partial",
    "Verif.Props.c75_disproved",
    "Verif.Props.c75_length_disproved"
   ],
   "note": "Proved for fixed lengths, except booleans of 2, TCP flags beyond eight bits, reduced 256-bit integers, negative milliseconds and micro- and nanoseconds, and for variable contents below 255 octets. False for the rest: see the two disproofs."
  },
  {
   "property": "C76",
   "status": "partial",
   "theorems": [
    "Verif.Props.c76_written_partial",
    "Verif.Props.c76_decoded_partial",
    "Verif.Props.c76_disproved",
    "Verif.Props.c76_values_disproved",
    "Verif.Props.c76_length_disproved"
   ],
   "note": "Proved for values that fit their length, and for decoded fields of the kinds in Flow.Kept. False for micro- and nanoseconds, variable-length lists and elements of unknown vendors, and for values of the caller that do not fit, which are altered instead of refused (disproofs)."
  },
  {
   "property": "C77",
   "status": "partial",
   "theorems": [
    "Verif.Props.c77_partial",
    "Verif.Props.c77_disproved"
   ],
   "note": "Proved for messages in whole seconds with valid templates and data that fits them, if the sender knows the templates with reduced lengths. False for a sender that only writes them, for records without fields and for fractions of a second (c77_disproved)."
  },
  {
   "property": "C78",
   "status": "partial",
   "theorems": [
    "Verif.Props.c78_partial",
    "Verif.Props.c78_disproved"
   ],
   "note": "Proved for packets in whole seconds with non-empty sets, valid templates and data that fits them. False for empty sets and, if something follows, for several templates in a set (c78_disproved)."
  },
  {
   "property": "C79",
   "status": "partial",
   "theorems": [
    "Verif.Props.c79_partial",
    "Verif.Props.c79_disproved"
   ],
   "note": "Proved for sets of templates and for data of even length. False for odd lengths, and for padding as long as a record (c79_disproved)."
  },
  {
   "property": "C80",
   "status": "partial",
   "theorems": [
    "Verif.Props.c80_partial",
    "Verif.Props.c80_disproved"
   ],
   "note": "Proved: the header bounds the records of data plus the sets of templates, and they are fewer only if the octets run out. Equality is false (c80_disproved)."
  },
  {
   "property": "C81",
   "status": "partial",
   "theorems": [
    "Verif.Props.c81_ipfix_partial",
    "Verif.Props.c81_disproved"
   ],
   "note": "Proved for streams of IPFIX messages framed by their own length, with any content. False if octets of an unknown version come in between (c81_disproved)."
  },
  {
   "property": "C82",
   "status": "partial",
   "theorems": [
    "Verif.Props.c82_ipfix_partial",
    "Verif.Props.c82_netflow_partial",
    "Verif.Props.c82_disproved"
   ],
   "note": "Proved for the two protocols and all sequences of datagrams. False for the observation domains of IPFIX, which share one map (c82_disproved)."
  },
  {
   "property": "C83",
   "status": "partial",
   "theorems": [
    "Verif.Props.c83_ipfix_partial",
    "Verif.Props.c83_netflow_partial",
    "Verif.Props.c83_disproved"
   ],
   "note": "Proved for data sets. False for sets of templates, and octets behind the zeros of an IPFIX data set are ignored too (c83_disproved)."
  },
  {
   "property": "C84",
   "status": "partial",
   "theorems": [
    "Verif.Props.c84_partial",
    "Verif.Props.c84_disproved"
   ],
   "note": "Proved: no records come out of data with a withdrawn id. It is not reported as unknown, and the withdrawal of all templates is an error (c84_disproved)."
  },
  {
   "property": "C85",
   "status": "partial",
   "theorems": [
    "Verif.Props.c85_partial",
    "Verif.Props.c85_disproved"
   ],
   "note": "Proved for all divisions whose last chunk has at least 5 octets, with XML as a parameter. False for a shorter last chunk at the end of the stream: the codec waits for 13 octets from the start of a chunk (c85_disproved)."
  },
  {
   "property": "C86",
   "status": "partial",
   "theorems": [
    "Verif.Props.c86_partial",
    "Verif.Props.c86_disproved"
   ],
   "note": "Proved for XML of 5 to 4294967295 octets. False for longer messages, which are written as one chunk that the decoder refuses (c86_disproved)."
  },
  {
   "property": "C87",
   "status": "partial",
   "theorems": [
    "Verif.Props.c87_partial",
    "Verif.Props.c87_disproved"
   ],
   "note": "Proved for all cuts that do not end a piece with less than the whole terminator behind the last chunk. False for those: the message is not delivered and the next one is an error (c87_disproved)."
  },
  {
   "property": "C88",
   "status": "partial",
   "theorems": [
    "Verif.Props.c88_partial",
    "Verif.Props.c88_hello",
    "Verif.Props.c88_noFault",
    "Verif.Props.c88_disproved"
   ],
   "note": "No panic and no loop in full. What is accepted is chunked as in RFC 6242 except that sizes may have a plus sign and leading zeros (c88_disproved)."
  },
  {
   "property": "C89",
   "status": "proved",
   "theorems": [
    "Verif.Props.c89_sound",
    "Verif.Props.c89_complete",
    "Verif.Props.c89_none"
   ],
   "note": "Fields are any type with decidable equality and a linear order; the order of the returned values is left open."
  },
  {
   "property": "C90",
   "status": "partial",
   "theorems": [
    "Verif.Props.c90_partial",
    "Verif.Props.c90_weight",
    "Verif.Props.c90_domain",
    "Verif.Props.c90_longer",
    "Verif.Props.c90_unique",
    "Verif.Props.c90_total",
    "Verif.Props.c90_disproved",
    "Verif.Props.c90_order_disproved"
   ],
   "note": "What is returned is characterised in full (c90_partial): the highest weight, then the domain before all domains, then the lexicographic order of the lists of fields. So a scope wins over those it extends at the end. False as documented for more specific scopes in general: a scope with a superset of the fields can lose (c90_disproved), and the same fields in another order are another scope (c90_order_disproved)."
  },
  {
   "property": "C91",
   "status": "proved",
   "theorems": [
    "Verif.Props.c91_isolated"
   ],
   "note": ""
  },
  {
   "property": "C92",
   "status": "partial",
   "theorems": [
    "Verif.Props.c92_undo",
    "Verif.Props.c92_partial",
    "Verif.Props.c92_disproved"
   ],
   "note": "Proved if nothing of at most its weight was left for the scope and the elements of the upsert; in general the result is that of the deletion alone (c92_undo). False otherwise: what was replaced is not restored (c92_disproved)."
  },
  {
   "property": "C93",
   "status": "proved",
   "theorems": [
    "Verif.Props.c93_order",
    "Verif.Props.c93_last"
   ],
   "note": ""
  },
  {
   "property": "C94",
   "status": "proved",
   "theorems": [
    "Verif.Props.c94_count"
   ],
   "note": ""
  },
  {
   "property": "C95",
   "status": "proved",
   "theorems": [
    "Verif.Props.c95_forwarded",
    "Verif.Props.c95_runs",
    "Verif.Props.c95_kept"
   ],
   "note": "A failure to send to a closed channel is not modelled."
  },
  {
   "property": "C96",
   "status": "proved",
   "theorems": [
    "Verif.Props.c96_reports",
    "Verif.Props.c96_runs"
   ],
   "note": "A packet that cannot be handed over within a second is dropped by the code; what is modelled are the packets it tries to send. Windows are one minute whatever the configured duration, which only moves their end (see C23), so groups are by minute."
  },
  {
   "property": "C97",
   "status": "partial",
   "theorems": [
    "Verif.Props.c97_values",
    "Verif.Props.c97_sum_partial",
    "Verif.Props.c97_min_partial",
    "Verif.Props.c97_max_partial",
    "Verif.Props.c97_or_partial",
    "Verif.Props.c97_order_partial",
    "Verif.Props.c97_disproved"
   ],
   "note": "Proved for numbers (sums modulo the type, exact if they fit), for least and greatest values without names, for bits of values of equal length, and independence of the order. False: sums wrap around, control bits are ordered by flag, octet arrays of different lengths lose bits, of lists and unknown elements the first value is reported (c97_disproved). Sums of floating point numbers are a parameter."
  },
  {
   "property": "C98",
   "status": "partial",
   "theorems": [
    "Verif.Props.c98_accepted",
    "Verif.Props.c98_applicable_partial",
    "Verif.Props.c98_disproved"
   ],
   "note": "False of lists and unknown elements, for which operations are accepted that are never carried out, and of booleans and MAC addresses, for which comparison is refused (c98_disproved)."
  },
  {
   "property": "C99",
   "status": "proved",
   "theorems": [
    "Verif.Props.c99_packets",
    "Verif.Props.c99_all"
   ],
   "note": ""
  }
 ]
}