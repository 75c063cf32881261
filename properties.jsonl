{"id": "C01", "title": "In-memory store behaves like a map from bundle id to the last pushed bundle", "statement": "After any history of push / update_metadata / remove calls on the in-memory store, get_bundle(id) returns exactly the bundle most recently pushed under that id if it was not removed since, and None otherwise; has_item(id), all_ids() and count() agree with it (all_ids lists each present id exactly once, count is their number).", "quantifier": "every finite sequence of store calls with arbitrary bundles, packs and ids, starting from the empty store", "why_tests_cant": "A unit test runs a handful of fixed call sequences; the claim is about every history of calls.", "anchors": ["core/dtn7/src/core/store/mem.rs: InMemoryBundleStore::{push,update_metadata,remove,get_bundle,has_item,all_ids,count}"]}
{"id": "C02", "title": "Every stored bundle has metadata, and the store never forgets an id", "statement": "At every point of any history, each id returned by all_ids() has metadata, that metadata carries the same id, and once metadata for an id exists get_metadata(id) never returns None again.", "quantifier": "every finite sequence of store calls on the in-memory store", "why_tests_cant": "A unit test runs a handful of fixed call sequences; the claim is about every history of calls.", "anchors": ["core/dtn7/src/core/store/mem.rs: InMemoryBundleStore::{push,remove,get_metadata}"]}
{"id": "C03", "title": "Removal leaves a tombstone and no data", "statement": "A successful remove(id) makes get_bundle(id) None and leaves metadata marked Deleted, stripped of every other retention constraint except LocalEndpoint; no other id is affected. remove of an id with no bundle reports an error.", "quantifier": "every store state and every id", "why_tests_cant": "A unit test runs a handful of fixed call sequences; the claim is about every history of calls.", "anchors": ["core/dtn7/src/core/store/mem.rs: InMemoryBundleStore::remove", "core/dtn7/src/core/bundlepack.rs: BundlePack::clear_constraints"]}
{"id": "C04", "title": "A deleted bundle is not accepted again", "statement": "The metadata kept for a deleted bundle prevents its resubmission: once a bundle was removed, pushing a bundle with the same id again does not make it available again.", "quantifier": "every history of store calls, for the in-memory and for the sled store", "why_tests_cant": "A unit test runs a handful of fixed call sequences; the claim is about every history of calls.", "anchors": ["core/dtn7/src/core/bundlepack.rs: Constraint::Deleted", "core/dtn7/src/core/store/mem.rs: push", "core/dtn7/src/core/store/sled.rs: push", "core/dtn7/src/lib.rs: store_add_bundle_if_unknown"]}
{"id": "C05", "title": "Sled store behaves like a map with tombstones", "statement": "After any history of push / update_metadata / remove calls on the sled store, get_bundle, has_item, all_ids and count agree with the map of accepted pushes minus removals, and a push either fails leaving everything unchanged or stores the bundle.", "quantifier": "every finite sequence of calls on the sled store", "why_tests_cant": "A unit test runs a handful of fixed call sequences; the claim is about every history of calls.", "anchors": ["core/dtn7/src/core/store/sled.rs: SledBundleStore"]}
{"id": "C06", "title": "Sled store is crash consistent", "statement": "If the process stops between any two flushed database writes of a push or remove, reopening the database shows no stored bundle without metadata, and a bundle whose push was interrupted can be pushed again.", "quantifier": "every operation history and every crash point inside the last operation", "why_tests_cant": "Crash points between two flushes are not reachable from a unit test.", "anchors": ["core/dtn7/src/core/store/sled.rs: push, remove, update_metadata"]}
{"id": "C07", "title": "Retention constraints survive the sneakers bit-set encoding", "statement": "Converting a set of retention constraints to the database bit flags and back yields the same set, for every set; two sets with the same flags are equal.", "quantifier": "every set of retention constraints", "why_tests_cant": "A unit test checks sample inputs; the claim is about every input, including lengths and values no sample covers.", "anchors": ["core/dtn7/src/core/store/sneakers.rs: convert_constraints_to_hashset, convert_hashset_to_constraints"]}
{"id": "C08", "title": "Syncing a pack with no constraints deletes, otherwise persists it", "statement": "BundlePack::sync removes the bundle from the store exactly when the pack holds no constraint; otherwise get_metadata afterwards returns exactly that pack, and no bundle data is changed.", "quantifier": "every store state and every pack", "why_tests_cant": "A unit test checks sample inputs; the claim is about every input, including lengths and values no sample covers.", "anchors": ["core/dtn7/src/core/bundlepack.rs: BundlePack::sync"]}
{"id": "C09", "title": "Each bundle is processed at most once while it is stored", "statement": "However many tasks receive bundles concurrently, between two removals of an id at most one receive call for that id proceeds past the duplicate check; all others stop there and change neither the stored bundle nor its metadata.", "quantifier": "every interleaving of any number of concurrent receive calls and removals", "why_tests_cant": "The failing executions depend on how tasks interleave between lock acquisitions; a test run exercises one schedule.", "anchors": ["core/dtn7/src/core/processing.rs: receive", "core/dtn7/src/lib.rs: store_add_bundle_if_unknown"]}
{"id": "C10", "title": "Reception statistics count every bundle exactly once", "statement": "After any sequence of receive calls, incoming plus dups equals the number of calls whose store access succeeded, and incoming equals the number of calls that found the id absent.", "quantifier": "every sequence of receive calls and removals", "why_tests_cant": "A unit test runs a handful of fixed call sequences; the claim is about every history of calls.", "anchors": ["core/dtn7/src/core/processing.rs: receive", "core/dtn7/src/core/mod.rs: DtnStatistics"]}
{"id": "C11", "title": "The expiry sweep removes exactly the expired bundles", "statement": "store_delete_expired removes a bundle if and only if it is not already deleted, its lifetime is not zero and creation time plus lifetime lies before now; every other bundle and its metadata stay as they were.", "quantifier": "every store content and every clock value", "why_tests_cant": "A unit test checks sample inputs; the claim is about every input, including lengths and values no sample covers.", "anchors": ["core/dtn7/src/lib.rs: store_delete_expired", "core/dtn7/src/core/bundlepack.rs: BundlePack::has_expired"]}
{"id": "C12", "title": "The janitor forwards every pending bundle once, oldest first", "statement": "A janitor run with an accepting CLA calls forward for exactly the bundles whose metadata says ForwardPending and not Deleted, each once, in non-decreasing order of creation time; with no accepting CLA it forwards none.", "quantifier": "every store content", "why_tests_cant": "A unit test checks sample inputs; the claim is about every input, including lengths and values no sample covers.", "anchors": ["core/dtn7/src/core/mod.rs: process_bundles", "core/dtn7/src/core/store/mod.rs: forwarding"]}
{"id": "C13", "title": "Only local or anonymous sources may transmit", "statement": "A bundle submitted for transmission whose source is neither dtn:none nor a registered endpoint is never dispatched, delivered or forwarded and is no longer in the store afterwards; every other one is dispatched.", "quantifier": "every node state and every bundle", "why_tests_cant": "A unit test checks sample inputs; the claim is about every input, including lengths and values no sample covers.", "anchors": ["core/dtn7/src/core/processing.rs: send_bundle, transmit"]}
{"id": "C14", "title": "Dispatch delivers locally and forwards correctly", "statement": "Dispatching a bundle hands it to the application agent registered for its destination if there is one (unless it claims to be an administrative record and cannot be read as one), hands it to no other agent, and starts forwarding if and only if its destination is not on this node.", "quantifier": "every node state and every bundle", "why_tests_cant": "A unit test checks sample inputs; the claim is about every input, including lengths and values no sample covers.", "anchors": ["core/dtn7/src/core/processing.rs: dispatch, local_delivery", "core/dtn7/src/lib.rs: is_local_node_id"]}
{"id": "C15", "title": "A bundle never leaves the node beyond its hop limit", "statement": "Every copy of a bundle handed to a convergence layer that carries a hop count block has hop count at most its limit and exactly one more than the stored copy; a bundle whose limit is used up is deleted instead of being sent to the recipients the router names.", "quantifier": "every node state, bundle and router answer", "why_tests_cant": "A unit test checks sample inputs; the claim is about every input, including lengths and values no sample covers.", "anchors": ["core/dtn7/src/core/processing.rs: handle_hop_count_block, forward"]}
{"id": "C16", "title": "A bundle past its lifetime is not sent", "statement": "forward never hands a bundle whose primary-block lifetime is exceeded when it is prepared for sending to a convergence layer; if the router names a recipient, it deletes it.", "quantifier": "every node state, clock value and router answer", "why_tests_cant": "A unit test checks sample inputs; the claim is about every input, including lengths and values no sample covers.", "anchors": ["core/dtn7/src/core/processing.rs: handle_primary_lifetime, forward"]}
{"id": "C17", "title": "Bundle age grows by the time spent on this node", "statement": "Each copy handed to a convergence layer has its bundle age block (if present) set to the stored age plus the milliseconds since reception, and the bundle is dropped once that age in milliseconds reaches its lifetime.", "quantifier": "every node state, bundle and clock value", "why_tests_cant": "A unit test checks sample inputs; the claim is about every input, including lengths and values no sample covers.", "anchors": ["core/dtn7/src/core/processing.rs: update_bundle_age, handle_bundle_age_block"]}
{"id": "C18", "title": "Every sent bundle names this node as previous node", "statement": "Each copy handed to a convergence layer carries exactly the local node id in its previous node block, whether or not the stored bundle had one, and all other blocks keep their contents apart from hop count and age.", "quantifier": "every bundle and node state", "why_tests_cant": "A unit test checks sample inputs; the claim is about every input, including lengths and values no sample covers.", "anchors": ["core/dtn7/src/core/processing.rs: handle_previous_node_block"]}
{"id": "C19", "title": "Unknown blocks that ask to be removed are removed, and nothing else is", "statement": "After receiving a bundle, the stored bundle consists of exactly the received blocks minus the unknown ones flagged for removal, in order; if an unknown block asks for bundle deletion the bundle is deleted; receiving never aborts.", "quantifier": "every list of canonical blocks", "why_tests_cant": "A unit test checks sample inputs; the claim is about every input, including lengths and values no sample covers.", "anchors": ["core/dtn7/src/core/processing.rs: receive"]}
{"id": "C20", "title": "Status reports are only produced when requested and permitted", "statement": "A status report bundle is created only if reports are enabled, the subject bundle is not an administrative record, its source is not dtn:none, its report-to is not a local endpoint and the corresponding request flag is set (or an unknown block asked for one); at most one per event; the report goes to the report-to address.", "quantifier": "every bundle, node state and processing step", "why_tests_cant": "A unit test checks sample inputs; the claim is about every input, including lengths and values no sample covers.", "anchors": ["core/dtn7/src/core/processing.rs: send_status_report, receive, forward, local_delivery, delete"]}
{"id": "C21", "title": "A status report removes its subject only on delivery", "statement": "Receiving an administrative record removes the referenced bundle from the store only if the record asserts delivery of it, and never touches any other bundle.", "quantifier": "every administrative record and store content", "why_tests_cant": "A unit test checks sample inputs; the claim is about every input, including lengths and values no sample covers.", "anchors": ["core/dtn7/src/core/processing.rs: inspect_status_report, is_administrative_record_valid"]}
{"id": "C22", "title": "A failed transmission never loses the bundle", "statement": "If none of the transfers attempted by forward succeeds, and neither lifetime, hop limit nor age ended the bundle, and the router did not ask for deletion without naming a recipient, the bundle is still stored and still pending for the next janitor run; a bundle is removed by a successful forward only if the router asked for that or it is a status report about itself.", "quantifier": "every node state, router answer and pattern of transfer outcomes", "why_tests_cant": "A unit test checks sample inputs; the claim is about every input, including lengths and values no sample covers.", "anchors": ["core/dtn7/src/core/processing.rs: forward"]}
{"id": "C23", "title": "Transfer statistics match transfer outcomes", "statement": "One forward call raises outgoing by the number of successful and failed by the number of failed transfers, and produces exactly one success or failure notification to the router per attempted transfer, whatever the completion order.", "quantifier": "every list of target nodes, every outcome pattern and every completion order", "why_tests_cant": "The failing executions depend on how tasks interleave between lock acquisitions; a test run exercises one schedule.", "anchors": ["core/dtn7/src/core/processing.rs: forward"]}
{"id": "C24", "title": "Deleted bundles stay deleted while tasks run", "statement": "Once a bundle has been removed, no still-running forward or delivery task makes it pending again: its metadata keeps the Deleted mark until a new push.", "quantifier": "every interleaving of removals with running forward and delivery tasks", "why_tests_cant": "The failing executions depend on how tasks interleave between lock acquisitions; a test run exercises one schedule.", "anchors": ["core/dtn7/src/core/processing.rs: forward, contraindicated", "core/dtn7/src/core/store/mem.rs: update_metadata"]}
{"id": "C25", "title": "An application agent hands out bundles in order, once each, without loss", "statement": "For any interleaving of bundle arrivals, pops and changes of the delivery channel, the bundles handed to the client through pop are a subsequence of the arrivals in arrival order, every arrival is handed out through exactly one of the channel and the queue or is still queued, and none is handed out twice.", "quantifier": "every sequence of push / pop / set_delivery_addr / clear_delivery_addr calls and channel outcomes", "why_tests_cant": "A unit test runs a handful of fixed call sequences; the claim is about every history of calls.", "anchors": ["core/dtn7/src/core/application_agent.rs: SimpleApplicationAgent"]}
{"id": "C26", "title": "Endpoint registration is idempotent and unique", "statement": "After any sequence of register / unregister calls every EID is registered at most once, an EID is found exactly when its last call was a register, and registering an already registered EID keeps its undelivered bundles.", "quantifier": "every sequence of register / unregister / delivery calls", "why_tests_cant": "A unit test runs a handful of fixed call sequences; the claim is about every history of calls.", "anchors": ["core/dtn7/src/core/mod.rs: DtnCore::{register_application_agent,unregister_application_agent,get_endpoint_mut,is_in_endpoints}"]}
{"id": "C27", "title": "A fetched singleton bundle leaves the store", "statement": "When a client pops a bundle (or it is delivered through the channel) its copy is removed from the store exactly if its destination is a singleton endpoint.", "quantifier": "every store, queue and bundle", "why_tests_cant": "A unit test checks sample inputs; the claim is about every input, including lengths and values no sample covers.", "anchors": ["core/dtn7/src/core/application_agent.rs: push, pop", "core/dtn7/src/lib.rs: store_remove_if_singleton_bundle"]}
{"id": "C28", "title": "The peer table has one entry per node and reports new peers correctly", "statement": "After any sequence of peer additions, removals and touches, each node name has at most one entry, which is the one added last; peers_add answers true exactly if the node was unknown; and two different nodes never share an entry.", "quantifier": "every sequence of peer table calls", "why_tests_cant": "A unit test runs a handful of fixed call sequences; the claim is about every history of calls.", "anchors": ["core/dtn7/src/lib.rs: peers_add, peers_remove, peers_known, peers_get_for_node"]}
{"id": "C29", "title": "Static peers are never dropped, dynamic peers exactly on timeout", "statement": "The periodic peer check keeps every static peer, keeps a dynamic peer exactly while the time since last contact is below its timeout (twice the announced beacon period if it announced one and no custom timeout applies), and tells the router about every dropped peer and no other.", "quantifier": "every peer table and clock value", "why_tests_cant": "A unit test checks sample inputs; the claim is about every input, including lengths and values no sample covers.", "anchors": ["core/dtn7/src/core/mod.rs: process_peers", "core/dtn7/src/core/peer.rs: DtnPeer::still_valid"]}
{"id": "C30", "title": "A dynamic peer is dropped on the fourth failed transmission", "statement": "A dynamic peer is removed from the table when the fourth failure since it was last (re)announced is reported and not before; static peers are never removed by failures.", "quantifier": "every sequence of failure reports and announcements", "why_tests_cant": "A unit test runs a handful of fixed call sequences; the claim is about every history of calls.", "anchors": ["core/dtn7/src/core/peer.rs: report_fail, failed_too_much", "core/dtn7/src/core/processing.rs: forward"]}
{"id": "C31", "title": "The convergence layer chosen for a peer is usable", "statement": "The sender task chosen for a peer names a CLA the peer offers and this node runs and which accepts bundles, its destination is the peer's address with the announced port (or the CLA's default port), and a task is produced whenever such a CLA exists.", "quantifier": "every peer and every set of running CLAs", "why_tests_cant": "A unit test checks sample inputs; the claim is about every input, including lengths and values no sample covers.", "anchors": ["core/dtn7/src/core/peer.rs: DtnPeer::first_cla"]}
{"id": "C32", "title": "Epidemic routing offers a bundle to each peer at most once unless sending failed", "statement": "Along any history of routing requests and notifications, a peer is selected for a bundle again only if a failure for that bundle and peer was reported since it was last selected.", "quantifier": "every history of routing commands and peer tables", "why_tests_cant": "A unit test runs a handful of fixed call sequences; the claim is about every history of calls.", "anchors": ["core/dtn7/src/routing/epidemic.rs: EpidemicRoutingAgentCore"]}
{"id": "C33", "title": "Epidemic routing never returns a bundle to the node it came from", "statement": "After an incoming-bundle notification naming a previous node, that node is not selected for the bundle unless a failure for it was reported.", "quantifier": "every history of routing commands", "why_tests_cant": "A unit test runs a handful of fixed call sequences; the claim is about every history of calls.", "anchors": ["core/dtn7/src/routing/epidemic.rs: IncomingBundle handling"]}
{"id": "C34", "title": "Epidemic routing serves every usable new peer, and only the destination if it is a neighbour", "statement": "A request selects exactly the peers with a usable CLA not yet served; if the destination node itself is among them only it is selected and deletion is requested. A peer counts as served only if it was actually selected.", "quantifier": "every peer table, history and bundle", "why_tests_cant": "A unit test checks sample inputs; the claim is about every input, including lengths and values no sample covers.", "anchors": ["core/dtn7/src/routing/epidemic.rs: SenderForBundle handling"]}
{"id": "C35", "title": "Spray and wait never exceeds its copy budget", "statement": "Over any history without failures, a bundle created here is handed to at most MAX_COPIES - 1 relays (plus direct delivery), and a bundle received from elsewhere only to its destination.", "quantifier": "every history of routing commands", "why_tests_cant": "A unit test runs a handful of fixed call sequences; the claim is about every history of calls.", "anchors": ["core/dtn7/src/routing/sprayandwait.rs"]}
{"id": "C36", "title": "A failed spray transfer undoes exactly that transfer", "statement": "After a sending-failed notification for a peer, that peer may be selected again, every other served peer stays served, and the copy counter is what it would be had the failed transfer not been made.", "quantifier": "every history of routing commands", "why_tests_cant": "A unit test runs a handful of fixed call sequences; the claim is about every history of calls.", "anchors": ["core/dtn7/src/routing/sprayandwait.rs: SendingFailed handling"]}
{"id": "C37", "title": "Static routing follows the first matching route", "statement": "The peer selected is the via of the first route in file order whose source and destination patterns match and whose via is a usable neighbour; at most one peer is selected, none if no route matches.", "quantifier": "every route list, peer table and bundle", "why_tests_cant": "A unit test checks sample inputs; the claim is about every input, including lengths and values no sample covers.", "anchors": ["core/dtn7/src/routing/static_routing.rs"]}
{"id": "C38", "title": "Flooding selects every usable peer and sink none", "statement": "Flooding answers every request with exactly the usable peers and never asks for deletion; sink answers with no peers and never asks for deletion.", "quantifier": "every peer table and bundle", "why_tests_cant": "A unit test checks sample inputs; the claim is about every input, including lengths and values no sample covers.", "anchors": ["core/dtn7/src/routing/flooding.rs", "core/dtn7/src/routing/sink.rs"]}
{"id": "C39", "title": "External routing answers go to the request that asked", "statement": "A response from the external router is delivered to the request for the bundle it names, each request is answered at most once, and a request without response ends with no peers and no deletion.", "quantifier": "every interleaving of requests, responses and timeouts", "why_tests_cant": "The failing executions depend on how tasks interleave between lock acquisitions; a test run exercises one schedule.", "anchors": ["core/dtn7/src/routing/erouting/processing.rs: sender_for_bundle, handle_packet"]}
{"id": "C40", "title": "MTCP framing round-trips", "statement": "Encoding a serialised bundle as an MTCP frame and decoding the bytes gives back exactly the bundle's bytes and consumes exactly the frame, for every length; data that is not a serialised bundle (shorter than 9 bytes or not ending in a CBOR break code) is rejected.", "quantifier": "every byte string", "why_tests_cant": "A unit test checks sample inputs; the claim is about every input, including lengths and values no sample covers.", "anchors": ["core/dtn7/src/cla/mtcp.rs: MPDU, MPDUCodec"]}
{"id": "C41", "title": "MTCP decoding does not depend on how the stream is cut", "statement": "Feeding a byte stream to the decoder in any sequence of chunks yields the same frames in the same order as feeding it at once; a concatenation of encoded frames decodes to exactly those frames.", "quantifier": "every byte stream and every way of splitting it", "why_tests_cant": "There are exponentially many ways to split a stream; a test picks one.", "anchors": ["core/dtn7/src/cla/mtcp.rs: MPDUCodec::decode"]}
{"id": "C42", "title": "MTCP decoding rejects garbage without crashing", "statement": "For every byte string the decoder either asks for more input, returns a frame made of bytes it received, or fails; it never panics, never reads beyond the buffer and never returns a frame from a header that is not a byte-string header.", "quantifier": "every byte string", "why_tests_cant": "A unit test checks sample inputs; the claim is about every input, including lengths and values no sample covers.", "anchors": ["core/dtn7/src/cla/mtcp.rs: MPDUCodec::decode, CBOR header parsing"]}
{"id": "C43", "title": "TCPCL messages round-trip", "statement": "Writing any well-formed TCPCL message and reading the bytes back yields the same message and consumes exactly those bytes, also when followed by further messages.", "quantifier": "every message of every type with field values in range", "why_tests_cant": "A unit test checks sample inputs; the claim is about every input, including lengths and values no sample covers.", "anchors": ["core/dtn7/src/cla/tcp/net.rs: TcpClPacket::{write,read}", "core/dtn7/src/cla/tcp/proto.rs"]}
{"id": "C44", "title": "TCPCL parsing never crashes and never over-reads", "statement": "For every byte stream the reader either returns a message built from a prefix of it or an error; arithmetic on received lengths never under- or overflows.", "quantifier": "every byte stream", "why_tests_cant": "A unit test checks sample inputs; the claim is about every input, including lengths and values no sample covers.", "anchors": ["core/dtn7/src/cla/tcp/net.rs: TcpClPacket::read, receive_contact_header"]}
{"id": "C45", "title": "TCPCL segmentation and reassembly deliver exactly the bundle bytes", "statement": "For every bundle and every positive segment size, the receiver reassembles exactly the sent bytes from the segments the sender produces, with the start flag only on the first and the end flag only on the last segment, no segment longer than the peer's limit.", "quantifier": "every byte string and every negotiated segment size", "why_tests_cant": "A unit test checks sample inputs; the claim is about every input, including lengths and values no sample covers.", "anchors": ["core/dtn7/src/cla/tcp/mod.rs: TcpSession::{send_bundle,receive}"]}
{"id": "C46", "title": "A TCPCL transfer is reported successful only if fully acknowledged", "statement": "A send is reported successful only after the peer acknowledged the full length of the bundle (or refused it as already present), and every send request gets at most one result.", "quantifier": "every sequence of messages from the peer, in any order", "why_tests_cant": "Peers may send any message at any time; tests use well-behaved peers.", "anchors": ["core/dtn7/src/cla/tcp/mod.rs: TcpSession::{receive,send}"]}
{"id": "C47", "title": "TCPCL acknowledges exactly the bytes received so far", "statement": "The acknowledgement sent for each segment carries the transfer id of the segment and the number of bytes received so far for that transfer; a segment out of sequence or for another transfer is rejected and ends or is refused, never silently merged into a bundle.", "quantifier": "every sequence of received segments", "why_tests_cant": "A unit test runs a handful of fixed call sequences; the claim is about every history of calls.", "anchors": ["core/dtn7/src/cla/tcp/mod.rs: TcpSession::receive"]}
{"id": "C48", "title": "An idle TCPCL session is kept alive", "statement": "When no message arrived for the negotiated keepalive interval a keepalive is sent, and the session is terminated only if a further interval passes in silence; the interval is the minimum of both sides' and zero disables it.", "quantifier": "every sequence of timeouts and messages", "why_tests_cant": "A unit test runs a handful of fixed call sequences; the claim is about every history of calls.", "anchors": ["core/dtn7/src/cla/tcp/mod.rs: TcpSession::run, negotiate_session"]}
{"id": "C49", "title": "External CLA names are unique and follow the connection", "statement": "After any sequence of connects, packets and disconnects of external CLA modules, every active module is registered as a CLA under its name, no two active modules share a name, names are 1..64 bytes, and after a module disconnects its CLA is gone.", "quantifier": "every sequence of connection events", "why_tests_cant": "A unit test runs a handful of fixed call sequences; the claim is about every history of calls.", "anchors": ["core/dtn7/src/cla/ecla/processing.rs: handle_connect, handle_packet, handle_disconnect"]}
{"id": "C50", "title": "External CLA packets are framed without loss", "statement": "The length-prefixed framing of the external CLA TCP transport returns exactly the packets sent, in order, whatever the chunking.", "quantifier": "every list of packets and every way of splitting the stream", "why_tests_cant": "A unit test checks sample inputs; the claim is about every input, including lengths and values no sample covers.", "anchors": ["core/dtn7/src/cla/ecla/tcp.rs"]}
{"id": "C51", "title": "Binary payloads survive the text encoding of external CLA packets", "statement": "Base64 encoding of bundle data in external CLA packets decodes to the same bytes, for every byte string.", "quantifier": "every byte string", "why_tests_cant": "A unit test checks sample inputs; the claim is about every input, including lengths and values no sample covers.", "anchors": ["core/dtn7/src/cla/ecla/mod.rs: base64 module"]}
{"id": "C52", "title": "Discovery beacons round-trip", "statement": "Serialising any beacon and deserialising it yields the same beacon, with flags that state exactly which optional parts are present; on the wire it is the CBOR array of its parts in the documented order.", "quantifier": "every beacon", "why_tests_cant": "A unit test checks sample inputs; the claim is about every input, including lengths and values no sample covers.", "anchors": ["core/dtn7/src/ipnd/beacon.rs: Beacon::{serialize,deserialize}"]}
{"id": "C53", "title": "Custom discovery services round-trip and bad ones are rejected", "statement": "Every custom service accepted by build_custom_service decodes to the values given; values outside the documented limits are rejected; decoding never crashes on any received payload.", "quantifier": "every tag and payload", "why_tests_cant": "A unit test checks sample inputs; the claim is about every input, including lengths and values no sample covers.", "anchors": ["core/dtn7/src/ipnd/services.rs: ServiceBlock::{build_custom_service,convert_services}"]}
{"id": "C54", "title": "Beacon sequence numbers advance by one per beacon and destination", "statement": "Consecutive beacons to one discovery destination carry consecutive sequence numbers (wrapping after the largest), independent of other destinations.", "quantifier": "every number of beacons and every destination set", "why_tests_cant": "A unit test runs a handful of fixed call sequences; the claim is about every history of calls.", "anchors": ["core/dtn7/src/dtnconfig.rs: update_beacon_sequence_number", "core/dtn7/src/lib.rs: get_sequence", "core/dtn7/src/ipnd/neighbour_discovery.rs: announcer"]}
{"id": "C55", "title": "A node never becomes its own peer through discovery, and keeps announced peers fresh", "statement": "Processing a received beacon ignores beacons of this node; any other beacon leaves the sender in the peer table with its address, period and CLAs, resets its failure count and last-contact time, and notifies the router.", "quantifier": "every peer table and beacon", "why_tests_cant": "A unit test checks sample inputs; the claim is about every input, including lengths and values no sample covers.", "anchors": ["core/dtn7/src/ipnd/neighbour_discovery.rs: receiver"]}
{"id": "C56", "title": "Store digests depend only on the set of known bundles", "statement": "Two nodes that know the same set of bundle ids compute the same digest input, whatever order the bundles arrived in, and different sets give different digest inputs.", "quantifier": "every pair of stores", "why_tests_cant": "A unit test checks sample inputs; the claim is about every input, including lengths and values no sample covers.", "anchors": ["core/dtn7/src/core/helpers.rs: get_complete_digest, get_digest_of_bids"]}
{"id": "C57", "title": "Control routes are only reachable from the local host", "statement": "With the unsafe option off, a request from a non-loopback address to any route that changes node state (registering, sending, deleting, peer changes, routing commands, external CLA and router sockets) is refused.", "quantifier": "every route and every remote address", "why_tests_cant": "A unit test checks sample inputs; the claim is about every input, including lengths and values no sample covers.", "anchors": ["core/dtn7/src/dtnd/httpd.rs: RequireLocalhost, spawn_httpd"]}
{"id": "C58", "title": "HTTP pull fetches exactly the missing bundles", "statement": "A pull round against a peer requests exactly the ids the peer lists and this node does not store, and nothing if the digests are equal.", "quantifier": "every pair of id sets", "why_tests_cant": "A unit test checks sample inputs; the claim is about every input, including lengths and values no sample covers.", "anchors": ["core/dtn7/src/cla/httppull.rs"]}
{"id": "C59", "title": "A web socket client receives what it subscribed to, in its chosen mode", "statement": "After any sequence of client commands the session delivers bundles of exactly the endpoints subscribed and not unsubscribed since, encoded in the mode chosen last; ending the connection releases every subscription. Every command is answered with what it did or why it was refused.", "quantifier": "every sequence of client messages", "why_tests_cant": "A unit test runs a handful of fixed call sequences; the claim is about every history of calls.", "anchors": ["core/dtn7/src/dtnd/ws.rs: WsAASession"]}
{"id": "C60", "title": "Discovery destinations are normalised and never empty", "statement": "add_destination accepts exactly addresses of an enabled address family, adds the default port when none is given, and check_destinations supplies the default for each enabled family when none was configured.", "quantifier": "every destination string and configuration", "why_tests_cant": "A unit test checks sample inputs; the claim is about every input, including lengths and values no sample covers.", "anchors": ["core/dtn7/src/dtnconfig.rs: add_destination, check_destinations"]}
{"id": "C61", "title": "Peer URLs are parsed faithfully", "statement": "For every CLA name, host, port and node name, parsing the URL built from them gives a static peer with exactly these, and malformed URLs are rejected with an error.", "quantifier": "every URL", "why_tests_cant": "A unit test checks sample inputs; the claim is about every input, including lengths and values no sample covers.", "anchors": ["core/dtn7/src/core/helpers.rs: parse_peer_url"]}
{"id": "C62", "title": "TCPCL messages arriving in pieces are handled whatever else happens", "statement": "A TCPCL session acts on a received message in the same way whether its bytes arrive at once or in pieces, and whatever send requests and timer events happen between the pieces; no received byte is lost or read twice.", "quantifier": "every byte stream, every way of cutting it into pieces and every interleaving with local events", "why_tests_cant": "The failing executions depend on how tasks interleave between lock acquisitions; a test run exercises one schedule.", "anchors": ["core/dtn7/src/cla/tcp/mod.rs: TcpSession::run", "core/dtn7/src/cla/tcp/net.rs: TcpClReceiver::read"]}
{"id": "C63", "title": "Store listings are exact", "statement": "Listing bundles by retention constraints returns each id whose metadata has all the constraints exactly once and no other; the forwarding list and the pending list are those with the corresponding constraints, and the list of all packs is the metadata of every known id.", "quantifier": "every history of store calls (and crashes, for the persistent store) and every constraint set", "why_tests_cant": "A unit test runs a handful of fixed call sequences; the claim is about every history of calls.", "anchors": ["core/dtn7/src/core/store/mem.rs: filter, pending, bundles", "core/dtn7/src/core/store/sled.rs: filter, pending, bundles", "core/dtn7/src/core/store/mod.rs: forwarding"]}
{"id": "C64", "title": "Adding a bundle only if it is unknown never overwrites", "statement": "store_add_bundle_if_unknown answers true exactly if no bundle with this id is available; if it answers true the bundle is stored and nothing else changed, otherwise the store is unchanged.", "quantifier": "every history of store calls and every bundle", "why_tests_cant": "A unit test runs a handful of fixed call sequences; the claim is about every history of calls.", "anchors": ["core/dtn7/src/lib.rs: store_add_bundle_if_unknown"]}
{"id": "C65", "title": "The routing agent answers every request", "statement": "Until it is told to shut down, the routing agent answers every request for senders, whatever bundles, peers, notifications and commands it was given before.", "quantifier": "every history of commands, for every built-in routing agent", "why_tests_cant": "A unit test runs a handful of fixed call sequences; the claim is about every history of calls.", "anchors": ["core/dtn7/src/routing/epidemic.rs", "core/dtn7/src/routing/sprayandwait.rs", "core/dtn7/src/routing/static_routing.rs", "core/dtn7/src/routing/flooding.rs", "core/dtn7/src/routing/sink.rs"]}
{"id": "C66", "title": "TCPCL refuses a transfer only if it has the bundle", "statement": "A first segment is refused exactly if refusing existing bundles is switched on and the segment announces the id of a bundle in the store; otherwise it is acknowledged.", "quantifier": "every history of a session and every segment", "why_tests_cant": "A unit test runs a handful of fixed call sequences; the claim is about every history of calls.", "anchors": ["core/dtn7/src/cla/tcp/mod.rs: TcpSession::receive"]}
{"id": "C67", "title": "The static routes file is read faithfully", "statement": "The routes in force are exactly the lines 'index source destination via' of the routes file in file order, whatever blanks separate the words; empty lines and comments are skipped; a printed route is read back as the same route.", "quantifier": "every file", "why_tests_cant": "A unit test checks sample inputs; the claim is about every input, including lengths and values no sample covers.", "anchors": ["core/dtn7/src/routing/static_routing.rs: parse_route_from_str"]}
{"id": "C68", "title": "Bundles are only taken out of the store for a reason", "statement": "Whenever a bundle leaves the store, one of these holds, given what happened before: a client asked for its deletion; it has a single recipient and was given to an application; its lifetime (by the janitor's clock) is over; the router asked for deletion and either named no recipient or a transfer of it to one of the named recipients succeeded; a status report about it came in; it was submitted with a source that is neither anonymous nor registered; it has an unknown block asking for deletion; lifetime, hop limit or age are exceeded; or it claims to be an administrative record and is none.", "quantifier": "every execution of a node: all calls, all interleavings of all tasks, all router answers and transfer outcomes", "why_tests_cant": "The failing executions depend on how tasks interleave between lock acquisitions; a test run exercises one schedule.", "anchors": ["core/dtn7/src/core/processing.rs:delete", "core/dtn7/src/core/processing.rs:forward", "core/dtn7/src/core/application_agent.rs:pop", "core/dtn7/src/lib.rs:store_remove"]}
{"id": "C69", "title": "A bundle is announced and delivered at most once per reception", "statement": "The number of times a bundle id is announced to the router, and the number of times it is given to an application agent, never exceeds the number of receptions of that id as a new bundle plus the number of client calls submitting it.", "quantifier": "every execution of a node: all calls, all interleavings of all tasks, all router answers", "why_tests_cant": "The failing executions depend on how tasks interleave between lock acquisitions; a test run exercises one schedule.", "anchors": ["core/dtn7/src/core/processing.rs:dispatch", "core/dtn7/src/core/processing.rs:local_delivery"]}
{"id": "C70", "title": "Copies go only to the recipients the router named", "statement": "For every bundle and every recipient (address, agent, node), the number of copies handed to a convergence layer never exceeds the number of times the router named that recipient for the bundle.", "quantifier": "every execution of a node: all calls, all interleavings of all tasks, all router answers", "why_tests_cant": "The failing executions depend on how tasks interleave between lock acquisitions; a test run exercises one schedule.", "anchors": ["core/dtn7/src/core/processing.rs:forward"]}
{"id": "C71", "title": "The delivery statistic counts deliveries", "statement": "When no task is running, the delivered statistic is the number of times a bundle was handed to the agent of a local endpoint.", "quantifier": "every execution of a node", "why_tests_cant": "The failing executions depend on how tasks interleave between lock acquisitions; a test run exercises one schedule.", "anchors": ["core/dtn7/src/core/processing.rs:local_delivery", "core/dtn7/src/core/mod.rs:DtnStatistics"]}
{"id": "C72", "title": "A stored bundle stays stored until it is removed", "statement": "Between any two moments of an execution, a bundle that was stored at the first is stored at the second, or a removal of it was recorded in between (and every removal has one of the reasons of C68).", "quantifier": "every execution of a node: all calls, all interleavings of all tasks, all router answers and transfer outcomes", "why_tests_cant": "The failing executions depend on how tasks interleave between lock acquisitions; a test run exercises one schedule.", "anchors": ["core/dtn7/src/core/processing.rs:forward", "core/dtn7/src/core/store/mem.rs:remove", "core/dtn7/src/lib.rs:store_remove"]}
{"id": "C73", "title": "One external router at a time", "statement": "At most one external router is served at a time; a router that connects while another is served is refused, and once the router's connection ends the next router that connects is served.", "quantifier": "every sequence of connection events", "why_tests_cant": "The failing executions depend on how tasks interleave between lock acquisitions; a test run exercises one schedule.", "anchors": ["core/dtn7/src/routing/erouting/processing.rs: handle_connection, disconnect"]}
{"id": "C74", "title": "One external CLA module cannot disturb the others", "statement": "Whatever packets one external CLA module sends, other modules can still connect, register, exchange bundles and disconnect.", "quantifier": "every sequence of packets of one module and events of others", "why_tests_cant": "The failing executions depend on how tasks interleave between lock acquisitions; a test run exercises one schedule.", "anchors": ["core/dtn7/src/cla/ecla/processing.rs: handle_packet, handle_disconnect", "core/dtn7/src/cla/ecla/ws.rs: handle_connection"]}
{"id": "C75", "title": "External CLA operations never wait for each other forever", "statement": "Packets, connects, disconnects, announcements and bundle submissions of the external CLA interface always finish, whatever runs beside them.", "quantifier": "every set of concurrent operations and every schedule", "why_tests_cant": "The failing executions depend on how tasks interleave between lock acquisitions; a test run exercises one schedule.", "anchors": ["core/dtn7/src/cla/ecla/processing.rs", "core/dtn7/src/cla/ecla/ws.rs", "core/dtn7/src/cla/external.rs"]}
{"id": "C76", "title": "A bundle for an external CLA is queued for exactly its modules", "statement": "A bundle handed to the external CLA with some name is queued once for exactly the connected modules registered under that name, and the transfer is reported successful if and only if it was queued for such a module.", "quantifier": "every state and every bundle", "why_tests_cant": "A unit test runs a handful of fixed call sequences; the claim is about every history of calls.", "anchors": ["core/dtn7/src/cla/external.rs: accept", "core/dtn7/src/cla/ecla/processing.rs: scheduled_submission"]}
{"id": "C77", "title": "Modules receive discovery beacons if and only if they asked for them", "statement": "Every announcement is sent to each active external CLA module that enabled beacons at registration, once, and to no other.", "quantifier": "every state and announcement", "why_tests_cant": "A unit test runs a handful of fixed call sequences; the claim is about every history of calls.", "anchors": ["core/dtn7/src/cla/ecla/processing.rs: announce"]}
{"id": "C78", "title": "External CLA registration is answered truthfully", "statement": "A registration is accepted, and answered with the node's names, if and only if the module name is 1 to 64 bytes long and no convergence layer has it yet; otherwise the module gets an error and is closed.", "quantifier": "every state and every registration packet", "why_tests_cant": "A unit test runs a handful of fixed call sequences; the claim is about every history of calls.", "anchors": ["core/dtn7/src/cla/ecla/processing.rs: handle_packet"]}
{"id": "C79", "title": "Statically configured peers survive discovery", "statement": "A peer configured statically stays in the peer table, as configured, whatever beacons arrive, transfers fail and timeouts pass, until it is changed or removed explicitly.", "quantifier": "every history of beacons, failures, timeouts and other peer changes", "why_tests_cant": "A unit test runs a handful of fixed call sequences; the claim is about every history of calls.", "anchors": ["core/dtn7/src/ipnd/neighbour_discovery.rs: receiver", "core/dtn7/src/lib.rs: peers_add", "core/dtn7/src/core/mod.rs: process_peers"]}
{"id": "C80", "title": "Announcing goes on whatever services are registered", "statement": "A node keeps sending discovery beacons whatever services are registered with it at run time.", "quantifier": "every history of rounds and service registrations", "why_tests_cant": "A unit test runs a handful of fixed call sequences; the claim is about every history of calls.", "anchors": ["core/dtn7/src/ipnd/neighbour_discovery.rs: announcer", "core/dtn7/src/ipnd/beacon.rs: Beacon::add_custom_service", "core/dtn7/src/lib.rs: service_add"]}
{"id": "C81", "title": "Beacons describe the node", "statement": "Every beacon sent names the node, its convergence layers with their ports, its services (configured or registered at run time) and, if enabled, its interval.", "quantifier": "every configuration and history", "why_tests_cant": "A unit test runs a handful of fixed call sequences; the claim is about every history of calls.", "anchors": ["core/dtn7/src/ipnd/neighbour_discovery.rs: announcer", "core/dtn7/src/dtnconfig.rs: DtnConfig.services", "core/dtn7/src/lib.rs: service_add"]}
{"id": "C82", "title": "Neighbours learn what a node announces", "statement": "Whenever a beacon sent by one node reaches another node, the other node lists the sender as a peer with its id, the sender's address, exactly its convergence layers, ports and services, and its interval.", "quantifier": "every pair of nodes, every configuration and history", "why_tests_cant": "A unit test runs a handful of fixed call sequences; the claim is about every history of calls.", "anchors": ["core/dtn7/src/ipnd/neighbour_discovery.rs: announcer, receiver", "core/dtn7/src/ipnd/beacon.rs", "core/dtn7/src/ipnd/services.rs"]}
{"id": "C83", "title": "HTTP calls do what they answer", "statement": "A call of the HTTP interface that is answered with success has exactly the effect it names: the endpoint is registered or unregistered, the longest waiting bundle is handed out, the bundle is deleted, submitted or received, the neighbour is added or removed, the command is passed to the router; a call that is not answered with success changes nothing clients can see.", "quantifier": "every request, in every state of the node", "why_tests_cant": "A unit test checks sample inputs; the claim is about every input, including lengths and values no sample covers.", "anchors": ["core/dtn7/src/dtnd/httpd.rs: register, unregister, endpoint, delete, download, insert_post, send_post, push_post"]}
{"id": "C84", "title": "Every HTTP request is answered", "statement": "Every request to the HTTP interface gets an answer, whatever its path, query and body.", "quantifier": "every request, in every state of the node", "why_tests_cant": "A unit test checks sample inputs; the claim is about every input, including lengths and values no sample covers.", "anchors": ["core/dtn7/src/dtnd/httpd.rs: send_post, http_peers_add, register, endpoint"]}
{"id": "C85", "title": "A peer's answers do not keep bundles from being pulled from others", "statement": "In every round of pulling bundles over HTTP every known peer is asked, at its address and the port it announced for this, whatever other peers answer or fail to answer.", "quantifier": "every sequence of rounds, peers and answers", "why_tests_cant": "A unit test runs a handful of fixed call sequences; the claim is about every history of calls.", "anchors": ["core/dtn7/src/cla/httppull.rs: http_puller_loop, http_pull_bundles, http_pull_from_node"]}
{"id": "C86", "title": "Bundles handed to a web socket session reach the client", "statement": "Every bundle handed to a client's web socket session is sent to the client, in the order in which the bundles arrived and in the mode chosen, and is not lost.", "quantifier": "every history of events, any number of clients and endpoints", "why_tests_cant": "The failing executions depend on how tasks interleave between lock acquisitions; a test run exercises one schedule.", "anchors": ["core/dtn7/src/dtnd/ws.rs: handle_socket, handle_bundle_delivery", "core/dtn7/src/core/application_agent.rs: push"]}
{"id": "C87", "title": "A client that subscribes gets what was waiting", "statement": "When a client subscribes to an endpoint, the bundles that were waiting there are sent to it, before those that arrive later.", "quantifier": "every history of events and every number of waiting bundles", "why_tests_cant": "A unit test runs a handful of fixed call sequences; the claim is about every history of calls.", "anchors": ["core/dtn7/src/dtnd/ws.rs: fetch_new_bundles, handle_message"]}
{"id": "C88", "title": "Web socket messages are submitted as given or refused", "statement": "A binary message of a client leads to exactly the bundle it describes being submitted, with an answer of success; a message that describes none submits nothing and is answered with an error.", "quantifier": "every binary message in every mode", "why_tests_cant": "A unit test checks sample inputs; the claim is about every input, including lengths and values no sample covers.", "anchors": ["core/dtn7/src/dtnd/ws.rs: handle_message"]}
{"id": "C89", "title": "Settings follow command line, file and defaults", "statement": "A daemon that comes up has, for working directory, web port, the three time spans, routing algorithm, store, endpoints and static peers, the value given on the command line, or else the one in the configuration file, or else the documented default; and its flags are those asked for.", "quantifier": "all command lines, all configuration files, all results of the libraries that parse addresses, endpoint ids and time spans", "why_tests_cant": "A unit test checks sample inputs; the claim is about every input, including lengths and values no sample covers.", "anchors": ["core/dtn7/src/bin/dtnd.rs: main", "core/dtn7/src/dtnconfig.rs: DtnConfig::from", "core/dtn7/src/dtnconfig.rs: DtnConfig::new"]}
{"id": "C90", "title": "The node has the id asked for", "statement": "A node name given by the user becomes a dtn node id, a number an ipn node id, and anything else has to be a complete node id, otherwise the daemon refuses to start; without a name the node gets a random one.", "quantifier": "all texts, on the command line and in the configuration file", "why_tests_cant": "A unit test checks sample inputs; the claim is about every input, including lengths and values no sample covers.", "anchors": ["core/dtn7/src/bin/dtnd.rs: main", "core/dtn7/src/dtnconfig.rs: DtnConfig::from", "core/dtn7/src/core/helpers.rs: is_valid_node_name"]}
{"id": "C91", "title": "Convergence layers get the settings written down", "statement": "Every convergence layer named on the command line or in the file is configured with exactly the settings given there; global settings are in force for the layer they name and override local ones, as the help says.", "quantifier": "all lists of layers and settings", "why_tests_cant": "A unit test checks sample inputs; the claim is about every input, including lengths and values no sample covers.", "anchors": ["core/dtn7/src/bin/dtnd.rs: main", "core/dtn7/src/dtnconfig.rs: DtnConfig::from", "core/dtn7/src/cla/tcp/mod.rs: TcpConvergenceLayer::new"]}
{"id": "C92", "title": "Services are offered as written down", "statement": "Every service given by tag and payload is offered with this payload; a tag given twice is refused.", "quantifier": "all lists of services, on the command line and in the file", "why_tests_cant": "A unit test checks sample inputs; the claim is about every input, including lengths and values no sample covers.", "anchors": ["core/dtn7/src/bin/dtnd.rs: main", "core/dtn7/src/dtnconfig.rs: DtnConfig::from"]}
{"id": "C93", "title": "Routing options are in force as written down", "statement": "Every routing option of the form algorithm.key=value is in force, the last one for each key, and any other text is refused; settings of the file stay unless overridden.", "quantifier": "all lists of texts given as routing options, all files", "why_tests_cant": "A unit test checks sample inputs; the claim is about every input, including lengths and values no sample covers.", "anchors": ["core/dtn7/src/bin/dtnd.rs: main"]}
{"id": "C94", "title": "Settings that make no sense are refused", "statement": "A daemon does not come up with a setting it cannot understand: time spans, peer URLs, destinations, port numbers, algorithms and stores.", "quantifier": "all command lines and configuration files", "why_tests_cant": "A unit test checks sample inputs; the claim is about every input, including lengths and values no sample covers.", "anchors": ["core/dtn7/src/bin/dtnd.rs: main", "core/dtn7/src/dtnconfig.rs: DtnConfig::from"]}
{"id": "C95", "title": "A daemon runs what is configured", "statement": "After start-up the daemon has the configured store and routing algorithm, one agent for the node and each endpoint, the configured static peers, the configured convergence layers with their ports in this order, and runs the janitor, the discovery and the connectors for external layers exactly if they are switched on; it starts whenever all of these exist and can be read.", "quantifier": "all configurations", "why_tests_cant": "A unit test checks sample inputs; the claim is about every input, including lengths and values no sample covers.", "anchors": ["core/dtn7/src/dtnd/daemon.rs: start_dtnd", "core/dtn7/src/cla/mod.rs"]}
{"id": "C96", "title": "A convergence layer answers every transfer exactly once", "statement": "Whoever asks a convergence layer (MTCP, UDP, HTTP, external, and the layers that only receive) to transfer a bundle to a neighbour gets exactly one answer: success, failure, or an error because the layer is gone. The answer never changes, and no transfer waits for ever once the operations of the operating system it needs have returned, also when connections fail, tasks panic or the layer is shut down in between.", "quantifier": "all layers, all sequences of transfers and shutdowns, all interleavings of their tasks, all results of connecting, writing and sending", "why_tests_cant": "The failing executions depend on how tasks interleave between lock acquisitions; a test run exercises one schedule.", "anchors": ["core/dtn7/src/cla/mod.rs: ClaSenderTask::transfer", "core/dtn7/src/cla/mtcp.rs: MtcpConvergenceLayer::new, mtcp_send_bundles", "core/dtn7/src/cla/udp.rs: UdpConvergenceLayer::new, udp_send_bundles", "core/dtn7/src/cla/http.rs: HttpConvergenceLayer::new, http_send_bundles", "core/dtn7/src/cla/external.rs: ExternalConvergenceLayer::new"]}
{"id": "C97", "title": "A successful transfer means the bundle was handed over", "statement": "If a convergence layer reports the transfer of a bundle as successful, the complete bundle was given to the network for exactly the address of the neighbour, once: as one datagram (UDP), in one request the neighbour accepted (HTTP), to the external module that confirmed it, or as one whole frame on one connection (MTCP), such that the receiving node, however the bytes are cut on the way, gets exactly the bundles of the successful transfers in order.", "quantifier": "all sequences of transfers, all interleavings, all partial writes, failures and reconnections, all ways of cutting the byte stream", "why_tests_cant": "The failing executions depend on how tasks interleave between lock acquisitions; a test run exercises one schedule.", "anchors": ["core/dtn7/src/cla/mtcp.rs: mtcp_send_bundles, MPDUCodec::decode", "core/dtn7/src/cla/udp.rs: udp_send_bundles", "core/dtn7/src/cla/http.rs: http_send_bundles", "core/dtn7/src/cla/external.rs: ExternalConvergenceLayer::new", "core/dtn7/src/cla/dummy.rs: DummyConvergenceLayer::new"]}
{"id": "C98", "title": "A convergence layer survives every transfer", "statement": "No transfer, whatever its destination, its data and the behaviour of the network, stops a convergence layer: it keeps serving later transfers until it is shut down.", "quantifier": "all layers, all destinations and data, all sequences of transfers, all interleavings and network failures", "why_tests_cant": "A unit test runs a handful of fixed call sequences; the claim is about every history of calls.", "anchors": ["core/dtn7/src/cla/mtcp.rs: MtcpConvergenceLayer::new", "core/dtn7/src/cla/udp.rs: UdpConvergenceLayer::new", "core/dtn7/src/cla/http.rs: http_send_bundles", "core/dtn7/src/core/peer.rs: DtnPeer::first_cla"]}
{"id": "C99", "title": "Received bundles are handed on once and in order", "statement": "Every bundle that arrives by UDP or on an MTCP connection is handed to bundle processing exactly once, in the order of arrival; data that is no bundle is only counted as broken and does not stop the reception of the bundles that follow.", "quantifier": "all sequences of datagrams and all byte streams, cut into pieces in all ways, with receive errors in between", "why_tests_cant": "A unit test checks sample inputs; the claim is about every input, including lengths and values no sample covers.", "anchors": ["core/dtn7/src/cla/udp.rs: udp_listener", "core/dtn7/src/cla/mtcp.rs: MtcpConvergenceLayer::handle_connection"]}
{"id": "C100", "title": "The daemon never waits for itself", "statement": "Requests to the web interface, websocket messages, received and sent bundles, routing decisions, the periodic clean-up, neighbour discovery and external modules may run at the same time in any number. None of them blocks another for ever: every one returns, however they are interleaved.", "quantifier": "all multisets of concurrent calls, all interleavings of their steps, all tables of peers and all control flows within the calls", "why_tests_cant": "The failing executions depend on how tasks interleave between lock acquisitions; a test run exercises one schedule.", "anchors": ["core/dtn7/src/dtnd/httpd.rs: index", "core/dtn7/src/core/mod.rs: process_peers", "core/dtn7/src/core/peer.rs: DtnPeer::still_valid, DtnPeer::first_cla", "core/dtn7/src/core/processing.rs: local_delivery", "core/dtn7/src/dtnd/ws.rs: WsAASession::handle_message, WsAASession::fetch_new_bundles", "core/dtn7/src/dtnd/daemon.rs: start_dtnd", "core/dtn7/src/lib.rs: CONFIG, DTNCORE, PEERS, STORE, CLAS"]}
{"id": "C101", "title": "Waiting bundles of an endpoint are a queue, under any concurrency", "statement": "As long as an endpoint stays registered, the bundles waiting for its client plus those put aside for it since are, in order, the bundles fetched since plus those waiting now: none is lost, doubled or overtaken.", "quantifier": "every reachable state of the node, every later execution with any interleaving of receptions, submissions, forwarding tasks, deletions, subscriptions and fetches in which the endpoint is not unregistered", "why_tests_cant": "The failing executions depend on how tasks interleave between lock acquisitions; a test run exercises one schedule.", "anchors": ["core/dtn7/src/core/application_agent.rs: SimpleApplicationAgent::push", "core/dtn7/src/core/application_agent.rs: SimpleApplicationAgent::pop", "core/dtn7/src/core/processing.rs: local_delivery", "core/dtn7/src/dtnd/httpd.rs: endpoint"]}
{"id": "C102", "title": "A bundle for a registered endpoint is delivered exactly once", "statement": "A bundle the node takes on (received for the first time, or submitted by a local application) whose destination is registered is given to that endpoint exactly once and to no other: it is then the last of those waiting there, or was passed on at once to the client that had subscribed. No other endpoint's waiting bundles change.", "quantifier": "every reachable state of the node, every such bundle, every order of the tasks it starts, every answer of the router and every outcome of transfers", "why_tests_cant": "A unit test runs a handful of fixed call sequences; the claim is about every history of calls.", "anchors": ["core/dtn7/src/core/processing.rs: receive", "core/dtn7/src/core/processing.rs: transmit", "core/dtn7/src/core/processing.rs: dispatch", "core/dtn7/src/core/processing.rs: local_delivery", "core/dtn7/src/core/application_agent.rs: SimpleApplicationAgent::push"]}
{"id": "C103", "title": "dtnrecv hands out exactly one waiting bundle per run", "statement": "dtnrecv -e E for a registered endpoint writes exactly the payload of the bundle that waits longest (or, on request, the whole bundle) and takes this bundle and no other; if nothing waits or the endpoint is not registered it writes nothing and no waiting bundle is lost; dtnrecv -b ID writes the stored bundle with that id and takes nothing.", "quantifier": "every state of the daemon, every endpoint name, every combination of output options, every waiting bundle", "why_tests_cant": "A unit test checks sample inputs; the claim is about every input, including lengths and values no sample covers.", "anchors": ["core/dtn7/src/bin/dtnrecv.rs: main", "core/dtn7/src/bin/dtnrecv.rs: write_bytes", "core/dtn7/src/dtnd/httpd.rs: endpoint", "core/dtn7/src/dtnd/httpd.rs: download"]}
{"id": "C104", "title": "dtnrecv reports registrations, unregistrations and deletions truthfully", "statement": "If dtnrecv says that it registered or unregistered an endpoint or deleted a bundle and ends with code 0, then the endpoint with that name is, or is not, registered, respectively the bundle with that id was stored and no longer is.", "quantifier": "every state of the daemon and every name or id given", "why_tests_cant": "A unit test checks sample inputs; the claim is about every input, including lengths and values no sample covers.", "anchors": ["core/dtn7/src/bin/dtnrecv.rs: main", "core/dtn7/src/dtnd/httpd.rs: register", "core/dtn7/src/dtnd/httpd.rs: unregister", "core/dtn7/src/dtnd/httpd.rs: delete"]}
{"id": "C105", "title": "dtnsend submits exactly the described bundle", "statement": "With readable sender and receiver, dtnsend submits exactly one bundle with this source, destination, creation timestamp, lifetime and payload, prints its id and ends with code 0, which means that the daemon took the bundle; a dry run submits nothing; if it ends with another code nothing was submitted.", "quantifier": "every combination of arguments, every input, every answer of the daemon to the questions for node id and timestamp, every state of the daemon", "why_tests_cant": "A unit test checks sample inputs; the claim is about every input, including lengths and values no sample covers.", "anchors": ["core/dtn7/src/bin/dtnsend.rs: main", "core/dtn7/src/dtnd/httpd.rs: insert_post"]}
{"id": "C106", "title": "A message sent with dtnsend is what dtnrecv writes", "statement": "Data sent with dtnsend from a local sender to a registered endpoint without subscriber is exactly what dtnrecv writes for that endpoint once the daemon has processed the bundle and the bundles waiting before it were fetched.", "quantifier": "every reachable state of the node, all data, all arguments, every order of the daemon's tasks and every answer of the router while the bundle is processed", "why_tests_cant": "A unit test runs a handful of fixed call sequences; the claim is about every history of calls.", "anchors": ["core/dtn7/src/bin/dtnsend.rs: main", "core/dtn7/src/bin/dtnrecv.rs: main", "core/dtn7/src/core/processing.rs: send_bundle", "core/dtn7/src/core/processing.rs: local_delivery", "core/dtn7/src/dtnd/httpd.rs: endpoint"]}
{"id": "C107", "title": "dtntrigger runs its command exactly once per bundle", "statement": "dtntrigger runs its command once per bundle with data, in the order of arrival, with the words of the command, the source of the bundle and a file with exactly its payload; never for anything else, never twice, and not before it is registered, connected, in bundle mode and subscribed.", "quantifier": "every command text, every sequence of messages, every handshake", "why_tests_cant": "A unit test runs a handful of fixed call sequences; the claim is about every history of calls.", "anchors": ["core/dtn7/src/bin/dtntrigger.rs: main", "core/dtn7/src/bin/dtntrigger.rs: execute_cmd", "core/dtn7/src/bin/dtntrigger.rs: write_temp_file"]}
{"id": "C108", "title": "dtnquery shows the state of the daemon exactly", "statement": "dtnquery lists exactly the bundles that are stored and not marked as deleted, with -a only those whose source or destination contains the address, with -d the digest of these; store lists every known bundle with its states of processing, peers everything the node knows of each neighbour, info its counters, eids the registered endpoints, and nodeid prints the node id. The text printed is JSON and reads back as exactly these data.", "quantifier": "every store content, every set of endpoints, every table of neighbours, every value of the counters, every address given", "why_tests_cant": "A unit test checks sample inputs; the claim is about every input, including lengths and values no sample covers.", "anchors": ["core/dtn7/src/bin/dtnquery.rs: main", "core/dtn7/src/dtnd/httpd.rs: status_bundles", "core/dtn7/src/dtnd/httpd.rs: status_bundles_filtered", "core/dtn7/src/dtnd/httpd.rs: status_bundles_filtered_digest", "core/dtn7/src/dtnd/httpd.rs: status_eids", "core/dtn7/src/core/store/mod.rs: BundleStore::filter_addr", "core/dtn7/src/dtnd/httpd.rs: status_store", "core/dtn7/src/dtnd/httpd.rs: status_peers", "core/dtn7/src/dtnd/httpd.rs: status_info", "core/dtn7/src/core/bundlepack.rs: BundlePack::fmt"]}
{"id": "C109", "title": "A node makes up no bundles", "statement": "Every bundle that is stored, announced to the router, handed to a convergence layer or given to an application was received or submitted before (or is a status report the node made), with the same primary block and the same fixed blocks, and an application only gets bundles addressed to its endpoint.", "quantifier": "every reachable state of a node: all calls, all interleavings of the tasks, all answers of routers and convergence layers, all times", "why_tests_cant": "A unit test runs a handful of fixed call sequences; the claim is about every history of calls.", "anchors": ["core/dtn7/src/core/processing.rs: receive", "core/dtn7/src/core/processing.rs: dispatch", "core/dtn7/src/core/processing.rs: local_delivery", "core/dtn7/src/core/processing.rs: forward", "core/dtn7/src/core/store/mod.rs: BundleStore::push"]}
{"id": "C110", "title": "Bundles keep identity and contents across a network", "statement": "Whatever an application gets anywhere in a network of nodes was submitted by an application on some node (or made by a node as status report, or pushed in by a peer outside the network): same primary block, no fixed block that the original does not have, none lost unless an unknown block asks for removal, and addressed to that application's endpoint unless different bundles were submitted under one id. The same holds for all copies on the way.", "quantifier": "every number of nodes, every run of the network: all interleavings, losses, duplications and reorderings of transfers, restarts of nodes", "why_tests_cant": "A unit test runs a handful of fixed call sequences; the claim is about every history of calls.", "anchors": ["core/dtn7/src/core/processing.rs: receive", "core/dtn7/src/core/processing.rs: forward", "core/dtn7/src/core/processing.rs: local_delivery", "core/dtn7/src/core/processing.rs: send_bundle"]}
{"id": "C111", "title": "The hop limit bounds how far a bundle travels", "statement": "A bundle submitted with a hop limit is passed on by at most that many nodes, and the hop count of every copy says how many nodes passed it on.", "quantifier": "every number of nodes and every run of the network", "why_tests_cant": "A unit test runs a handful of fixed call sequences; the claim is about every history of calls.", "anchors": ["core/dtn7/src/core/processing.rs: forward", "core/dtn7/src/core/processing.rs: handle_hop_count_block"]}
{"id": "C112", "title": "Bundles travel along chains of nodes", "statement": "A bundle that a node takes on for another node, while it is alive and its hop limit allows, is handed to the convergence layer for every neighbour the router names, with the age increased by no more than the time spent at the node. Therefore a bundle travels along every chain of nodes, of any length within its hop limit, whose routers name the next node, and the node at the end gives it to the application exactly once, with the primary block, the payload and all other fixed blocks unchanged and the hop count increased by the length of the chain. This holds although every node does other work before and at the same time, provided that nobody removes or replaces the stored bundle meanwhile.", "quantifier": "All bundles, all chains of nodes of any length, all configurations and histories of each node, all schedules of its tasks.", "why_tests_cant": "A unit test runs a handful of fixed call sequences; the claim is about every history of calls.", "anchors": ["core/dtn7/src/core/processing.rs: receive", "core/dtn7/src/core/processing.rs: forward", "core/dtn7/src/core/bundlepack.rs: BundlePack", "core/dtn7/src/routing/mod.rs: notify"]}
{"id": "C113", "title": "What the router decides is carried out, whatever else the node does", "statement": "While a node processes any number of calls at the same time, in any order: whenever the router names a neighbour for a stored bundle, a copy of this bundle with its hop count raised and the previous node replaced is handed to the convergence layer for this neighbour before the node comes to rest. A received bundle for another node that is not a duplicate, a submitted bundle for another node whose source is anonymous or registered, and, when the janitor runs, every bundle that waits to be forwarded, are taken to the router in this way. This holds if the bundle stays in the store, is alive, has room in its hop limit and has extension blocks as the standard demands.", "quantifier": "all reachable states of a node with any tasks running, all further executions that come to rest, with any interleaving, calls, registrations, clock changes and router answers in between, in which the bundle is neither removed nor replaced and does not expire", "why_tests_cant": "The failing executions depend on how tasks interleave between lock acquisitions; a test run exercises one schedule.", "anchors": ["core/dtn7/src/core/processing.rs: forward, receive, dispatch, transmit", "core/dtn7/src/core/mod.rs: process_bundles", "core/dtn7/src/core/bundlepack.rs: BundlePack"]}
{"id": "C114", "title": "Every call comes to an end", "statement": "Reception, submission, removal, fetching and janitor runs all come to an end, however many other calls are made at the same time and whatever order their steps are made in: as long as a call has not ended, one of the tasks it has led to can go on, even if all other tasks stood still, and after finitely many steps of its own it is done. Without further calls the whole node comes to rest.", "quantifier": "all reachable states of a node with any tasks running, all calls, all infinite executions from there in which the tasks of the call are not neglected for ever, with any interleaving, further calls, transfer outcomes, router answers and changes from outside", "why_tests_cant": "The failing executions depend on how tasks interleave between lock acquisitions; a test run exercises one schedule.", "anchors": ["core/dtn7/src/core/processing.rs: receive, send_bundle, forward, dispatch", "core/dtn7/src/core/mod.rs: process_bundles", "core/dtn7/src/httpd.rs: delete, endpoint"]}
{"id": "C115", "title": "The client library of external modules carries packets faithfully", "statement": "A module or router that uses the client library gets its packets to the daemon in the order of its commands, none skipped, doubled or reordered, up to the first close, a module's registration first; it is handed exactly the daemon's packets in order, a module with its own id filled in; serve goes on until a close or the end of the connection and returns the first error the daemon reported, or success; it can be called again after a lost connection; a bad address is answered with an error.", "quantifier": "all addresses, all interleavings of commands, calls of serve, writes, messages from the daemon and connection losses, any number of them", "why_tests_cant": "The failing executions depend on how tasks interleave between lock acquisitions; a test run exercises one schedule.", "anchors": ["core/dtn7/src/cla/ecla/ws_client.rs: new, Client::serve, command_channel", "core/dtn7/src/routing/erouting/ws_client.rs: new, Client::serve, command_channel"]}
{"id": "C116", "title": "With epidemic routing or flooding, stored bundles spread to all neighbours", "statement": "A bundle that waits in a node with epidemic routing, stays alive and may travel one more hop is offered to every neighbour: once the node has come to rest after a janitor run, every neighbour that could be reached when the router was asked has been handed a copy or has sent the bundle itself, and one whose last transfer failed is served again; the only exception is that the destination itself is a neighbour and is served instead. With flooding every reachable neighbour is served each time.", "quantifier": "all reachable states of a node with any tasks running, all executions with any interleaving, calls, transfer outcomes and changes of the neighbourhood, all histories of the router", "why_tests_cant": "The failing executions depend on how tasks interleave between lock acquisitions; a test run exercises one schedule.", "anchors": ["core/dtn7/src/routing/epidemic.rs: handle_routing_cmd, incoming_bundle, sending_failed", "core/dtn7/src/routing/flooding.rs: handle_routing_cmd", "core/dtn7/src/core/processing.rs: forward, send_bundle_task", "core/dtn7/src/core/mod.rs: process_bundles"]}
{"id": "C117", "title": "The tcp convergence layer answers every transfer, and sends each once over a shared connection", "statement": "A caller of the tcp layer gets exactly one answer per transfer unless the peer keeps it waiting: when the node has nothing left to do, every transfer has been answered or waits on an open connection to its destination on which it is the peer's turn, and when a connection ends everything put on it is answered. The answer is success only if the peer has confirmed this transfer on that connection. Each transfer is put on at most one connection, once, and what is written there is the transfers in that order with all their bytes. The node opens at most one connection per address, uses connections that came in for both directions, and nothing that peers send or callers ask ends the layer.", "quantifier": "all sequences of requests, connections, messages, losses and timeouts, all interleavings of the command loop, transfer tasks, listener and sessions, any number of peers", "why_tests_cant": "The failing executions depend on how tasks interleave between lock acquisitions; a test run exercises one schedule.", "anchors": ["core/dtn7/src/cla/tcp/mod.rs: tcp_send_bundles, TcpConnection::connect, Listener::run, TcpConvergenceLayer::new, TCP_CONNECTIONS", "core/dtn7/src/cla/tcp/mod.rs: TcpSession::run"]}
{"id": "C118", "title": "Bundles sent between two nodes over tcp arrive once, in order and unaltered, and callers hear of it", "statement": "On a tcp connection between two nodes the receiving node processes only bundles the sending node was asked to transfer on it, unaltered, in this order, none more often than asked for. A transfer answered as successful has been processed there (or, if both are set to refuse what they have, was there already). No transfer put on the connection is answered as failed. When everything written has arrived and the nodes have nothing left to do, every transfer on the connection has been answered as successful, and the receiver has got exactly these bundles.", "quantifier": "all histories of both nodes, all bundles, any number of transfers at once in both directions, any moment of loss or delay, both settings of refuse_existing_bundles on each node", "why_tests_cant": "The failing executions depend on how tasks interleave between lock acquisitions; a test run exercises one schedule.", "anchors": ["core/dtn7/src/cla/tcp/mod.rs: TcpSession::run, TcpSession::receive, TcpSession::send_bundle, tcp_send_bundles", "core/dtn7/src/cla/tcp/proto.rs: TcpClPacket"]}
{"id": "C119", "title": "Two nodes that exchange bundles over tcp never end the connection by mistake, and every exchange settles", "statement": "While no end of a tcp connection between two nodes is told to stop, loses the connection or runs into its timer, no message and no bundle to send makes either end its session. Transfers are answered in order, as successful, at most one at each end waiting. The messages under way are used up after finitely many arrivals, in whatever order the directions are served, and then every transfer has been answered as successful.", "quantifier": "all bundles, any number in both directions at any time, all announced segment sizes, both settings of refuse_existing_bundles at each end, all contents of the stores, all interleavings of arrivals", "why_tests_cant": "The failing executions depend on how tasks interleave between lock acquisitions; a test run exercises one schedule.", "anchors": ["core/dtn7/src/cla/tcp/mod.rs: TcpSession::run, TcpSession::receive, TcpSession::send, TcpSession::send_bundle, TcpSession::process_bundle"]}
{"id": "C120", "title": "Bundles are carried from contact to contact to their destination", "statement": "With epidemic routing, a bundle that a node keeps is handed over at the next contact: the node may hold it for any time and do anything else meanwhile; when the janitor runs while a neighbour can be reached, a copy is handed over for that neighbour, unless the bundle came from it or the destination itself is met and gets a copy. This holds again for the copy at the next node, and so on for any sequence of contacts within the bundle's lifetime and hop limit. Every copy that gets to the destination is the bundle that was sent (same primary block, payload and other fixed blocks, hops counted), and the node there gives it to the application exactly once.", "quantifier": "every bundle with room for the hops, every sequence of contacts of any length, at every node every history before it has the bundle, every time it is held and every concurrent activity, every set of neighbours whenever the router is asked", "why_tests_cant": "A unit test runs a handful of fixed call sequences; the claim is about every history of calls.", "anchors": ["core/dtn7/src/core/processing.rs: forward", "core/dtn7/src/core/processing.rs: receive", "core/dtn7/src/routing/epidemic.rs: handle_sender_for_bundle", "core/dtn7/src/dtnd/janitor.rs: janitor", "core/dtn7/src/core.rs: process"]}
{"id": "C121", "title": "An external routing program sends each bundle once to each neighbour that lacks it", "statement": "The routing program shipped with the project answers every request of its node with a reply for the same bundle, as long as it runs. With the epidemic strategy a reply names only neighbours the node has told of, at the addresses and over the layers it told, no neighbour twice, no neighbour that was named for the bundle before or from which the bundle came unless the transfer failed or a request timed out; and it names all neighbours with a usable layer that have not got the bundle, except that when the destination is such a neighbour it alone is named and deletion is asked for. Told and asked the same, it makes the node use the same senders as built-in epidemic routing. With the flooding strategy every layer of every neighbour is named, each neighbour once.", "quantifier": "all sequences of packets from the node, all neighbours, layers and bundles, both strategies", "why_tests_cant": "A unit test runs a handful of fixed call sequences; the claim is about every history of calls.", "anchors": ["examples/dtnerouting.rs: sender_for_bundle", "examples/dtnerouting.rs: flooding_strategy", "examples/dtnerouting.rs: serve", "core/dtn7/src/routing/erouting/processing.rs: unpack_sender_for_bundle", "core/dtn7/src/routing/epidemic.rs: handle_routing_cmd"]}
{"id": "C122", "title": "External routing programs know the node's neighbours", "statement": "From the moment it connects, an external routing program is told of every neighbour that the node has and of every neighbour that it loses: at any time, what was told about a neighbour agrees with the node's own table.", "quantifier": "all tables and all sequences of beacons, periodic checks, failed transfers, tcp sessions and http calls", "why_tests_cant": "A unit test runs a handful of fixed call sequences; the claim is about every history of calls.", "anchors": ["core/dtn7/src/routing/erouting/processing.rs: handle_connection", "core/dtn7/src/core/mod.rs: process_peers", "core/dtn7/src/core/processing.rs: forward", "core/dtn7/src/ipnd/neighbour_discovery.rs: receiver", "core/dtn7/src/cla/tcp/mod.rs: connect", "core/dtn7/src/dtnd/httpd.rs: http_peers_add"]}
{"id": "C123", "title": "The echo service answers each bundle once, to its source", "statement": "For each bundle with a payload that is handed to the echo service, the node is given one answer: addressed to the bundle's source, from its destination, with the same payload and a lifetime of a day. Answers come in the order of the bundles, none is left out and nothing else is sent; with everything read and handled all bundles are answered. Started while its endpoint is registered the service comes to serve it, goes on as long as it is connected, and leaves no bundle for the endpoint unanswered.", "quantifier": "all node histories, all interleavings of the messages of node and program, all bundles", "why_tests_cant": "The failing executions depend on how tasks interleave between lock acquisitions; a test run exercises one schedule.", "anchors": ["examples/dtnecho2.rs: main", "core/dtn7/src/dtnd/ws.rs: handle_message", "core/dtn7/src/dtnd/ws.rs: handle_bundle_delivery"]}
{"id": "C124", "title": "The ping program counts the replies to its pings", "statement": "Asked for n pings, the ping program writes n pings, one after the other, each when the last one has been answered or its timeout has passed, then ends; its exit code is 0 exactly if all were answered. It reports a reply for the ping that it answers, counts nothing else as a reply, and gives up a ping that is not answered within the timeout.", "quantifier": "all sequences of messages, timeouts and errors, all arrival times, all arguments", "why_tests_cant": "A unit test runs a handful of fixed call sequences; the claim is about every history of calls.", "anchors": ["examples/dtnping.rs: main", "examples/dtnping.rs: send_ping", "core/dtn7/src/dtnd/ws.rs: handle_socket"]}
{"id": "C125", "title": "The program that connects several nodes brings each bundle to the node it is addressed to", "statement": "Every bundle that a node receives through the program was sent by one of the connected nodes to an address that leads to the receiver; bundles of each sender arrive in the order in which they were sent, none twice and, once nothing is on its way, none missing. An address leads to a node if it is the node's number, alone or before a colon. Every node hears of each announcement of every other node, under the number that leads to that node, and of nothing else. A node that does not read delays only the bundles for itself.", "quantifier": "all numbers of nodes, all histories of the nodes before and during, all interleavings of connecting, registering, writing, reading and routing", "why_tests_cant": "The failing executions depend on how tasks interleave between lock acquisitions; a test run exercises one schedule.", "anchors": ["examples/dtnecla_connect_n.rs: main", "core/dtn7/src/cla/ecla/ws_client.rs: serve", "core/dtn7/src/cla/ecla/processing.rs: handle_packet", "core/dtn7/src/cla/ecla/processing.rs: scheduled_submission"]}
{"id": "C126", "title": "The programs that carry bundles over TCP write each bundle once, in order and whole, and the other side reads exactly what was written", "statement": "dtnecla_mtcp and dtnecla_json_mtcp deal with the bundles of their node one after the other. The connections to an address, read one after the other, carry the bundles for that address in the order in which the node sent them, each at most once and, if connecting and writing succeed, all of them. However TCP cuts the bytes, the other program (or, for MTCP, a node with the built-in layer) reads exactly these bundles, and gives them to its node in order, none twice, none changed and none missing. Nothing but bundles comes from outside, and nobody outside can end the program.", "quantifier": "all packets of the node, all failures of connecting and of writing at any byte, all ways of cutting the bytes, all interleavings of sending, receiving and the client", "why_tests_cant": "The failing executions depend on how tasks interleave between lock acquisitions; a test run exercises one schedule.", "anchors": ["examples/dtnecla_mtcp.rs: send_bundle", "examples/dtnecla_mtcp.rs: handle_connection", "examples/dtnecla_json_mtcp.rs: send_bundles", "examples/dtnecla_json_mtcp.rs: handle_connection", "core/dtn7/src/cla/mtcp.rs: MPDUCodec"]}
{"id": "C127", "title": "Bundles for an application of the node reach it, whatever else the node does at the same time", "statement": "A bundle that a node receives as new, or that one of its applications submits, for an endpoint that is registered at the node, is given to that endpoint before the node comes to rest, provided the endpoint stays registered and nobody removes or replaces the stored bundle first. It has then been passed to a subscribed client, or been fetched by a client, or is waiting for one. If no bundle with the same id was accepted or submitted another time, it is given to an endpoint exactly once. Other receptions, submissions, removals, fetches, janitor runs and changes of the registrations of other endpoints may be going on at the same time.", "quantifier": "all bundles, all reachable states of the node with any tasks running, all interleavings with further calls, all answers of the router and outcomes of transfers", "why_tests_cant": "The failing executions depend on how tasks interleave between lock acquisitions; a test run exercises one schedule.", "anchors": ["core/dtn7/src/core/processing.rs: receive", "core/dtn7/src/core/processing.rs: transmit", "core/dtn7/src/core/processing.rs: dispatch", "core/dtn7/src/core/processing.rs: local_delivery", "core/dtn7/src/core/application_agent.rs: SimpleApplicationAgent"]}
{"id": "C128", "title": "What the persistent store holds survives restarts, and what was removed never comes back", "statement": "A node with the persistent store may be stopped at any time, also in the middle of a store call, and started again. A bundle in its database is still there afterwards unless the node removed it. A bundle that was removed never enters the database again. However often a bundle is received, before and after restarts, it is taken as new at most once. After a restart the node neither takes in nor sends nor delivers a bundle that it had removed before.", "quantifier": "all configurations, all interleavings of receptions, submissions, removals, fetches and janitor runs, all answers of the router, all stop points between and inside store calls, any number of restarts", "why_tests_cant": "A unit test runs a handful of fixed call sequences; the claim is about every history of calls.", "anchors": ["core/dtn7/src/core/store/sled.rs: SledBundleStore", "core/dtn7/src/core/processing.rs: receive, dispatch, forward, local_delivery", "core/dtn7/src/lib.rs: store_add_bundle_if_unknown", "core/dtn7/src/dtnd/daemon.rs: start_dtnd"]}
{"id": "C129", "title": "Bundles in the persistent store are taken up again after a restart", "statement": "After a restart of a node with the persistent store, each bundle in the database that waits to be forwarded is taken to the router by the next run of the janitor, and copies are handed over for all neighbours the router names. Bundles that wait for an application or were stopped half-way are taken up as well.", "quantifier": "all histories of a node with the persistent store, with stops at any points, and all interleavings after the restart", "why_tests_cant": "A unit test runs a handful of fixed call sequences; the claim is about every history of calls.", "anchors": ["core/dtn7/src/core/mod.rs: process_bundles", "core/dtn7/src/core/processing.rs: forward", "core/dtn7/src/core/store/sled.rs: forwarding, get_bundle", "core/dtn7/src/core/application_agent.rs: SimpleApplicationAgent"]}
{"id": "C130", "title": "The node's guarantees hold with the persistent store, too", "statement": "With the persistent store, and however often and wherever the process is stopped and started again: every copy handed to a convergence layer has a hop count within its limit, was checked to be within its lifetime, carries an age that counts the time the node was not running, names this node as its previous node, is otherwise the bundle in the database, and goes to a neighbour that the router named for it; every status report is permitted and addressed to the report-to endpoint; every removal from the database has a reason; and a bundle with an unknown block that asks for its deletion is never taken up.", "quantifier": "every history of calls, schedules, router answers, transfer outcomes, changes of clock, peers and endpoints, and stops of the process at any point, also inside a call of the store", "why_tests_cant": "A unit test runs a handful of fixed call sequences; the claim is about every history of calls.", "anchors": ["core/dtn7/src/core/processing.rs: forward", "core/dtn7/src/core/store/sled.rs: SledBundleStore", "core/dtn7/src/core/bundlepack.rs: BundlePack", "core/dtn7/src/core/processing.rs: send_status_report"]}
{"id": "C131", "title": "Foreign sources are refused across restarts", "statement": "With the persistent store, a submitted bundle whose source is neither dtn:none nor registered is never announced to the router, delivered, fetched or handed to a convergence layer, whatever else runs and however often the process is stopped and started again; and it is not in the store when the submission is over.", "quantifier": "every history of the node with restarts at any point, every bundle", "why_tests_cant": "A unit test runs a handful of fixed call sequences; the claim is about every history of calls.", "anchors": ["core/dtn7/src/core/processing.rs: send_bundle, transmit, delete", "core/dtn7/src/core/store/sled.rs: push, remove"]}
{"id": "C132", "title": "A node with the persistent store makes up no bundles", "statement": "With the persistent store, every bundle that is in the database, announced to the router, waiting at or given to an application, or handed to a convergence layer was submitted to this node, received by it (up to removed unknown blocks) or is a status report it made, in this run of the process or an earlier one; applications get only bundles addressed to their endpoint (if no two bundles share an id), and copies differ from the stored bundle only in the hop count, age and previous node blocks.", "quantifier": "every history of the node with restarts at any point and between the writes of any store operation, every bundle", "why_tests_cant": "A unit test runs a handful of fixed call sequences; the claim is about every history of calls.", "anchors": ["core/dtn7/src/core/processing.rs: send_bundle, receive, dispatch, local_delivery, forward", "core/dtn7/src/core/store/sled.rs: push, remove, get_bundle"]}
{"id": "C133", "title": "Bundles keep identity, contents and hop limit in networks whose nodes restart", "statement": "In a network in which some nodes keep their bundles in memory and others in the database, and all may be stopped and started again at any time, every bundle that an application gets or a node holds or sends was submitted somewhere (or made as a status report), with the same primary block and the same blocks apart from hop count, age and previous node; and no copy is passed on more often than its hop limit allows. A bundle held by a node with a database stays there until the node removes it.", "quantifier": "every network, every interleaving of its nodes with losses, duplications and delays, restarts of any node at any point, also between the writes of a store operation", "why_tests_cant": "A unit test runs a handful of fixed call sequences; the claim is about every history of calls.", "anchors": ["core/dtn7/src/core/processing.rs: receive, forward, local_delivery", "core/dtn7/src/core/store/sled.rs: push, remove, new", "core/dtn7/src/core/store/mem.rs: push"]}
{"id": "C134", "title": "Bundles for an application reach it, with the persistent store", "statement": "With the database as store, a bundle that the node receives or an application submits for a registered endpoint is given to that endpoint, if the endpoint stays registered and nobody removes the bundle first; it is passed on at once, fetched by a client, or waits, and clients fetch waiting bundles once each and in order. This holds also for bundles that are waiting when the process is stopped and started again.", "quantifier": "every configuration, every history with restarts at any point, every interleaving with other calls, every bundle whose id is not known without its bundle", "why_tests_cant": "A unit test runs a handful of fixed call sequences; the claim is about every history of calls.", "anchors": ["core/dtn7/src/core/processing.rs: local_delivery, dispatch, receive, transmit", "core/dtn7/src/core/store/sled.rs: push, update_metadata, get_bundle", "core/dtn7/src/core/application_agent.rs: push, pop"]}
{"id": "C135", "title": "Numbers of events and statistics are right, with the persistent store", "statement": "With the database as store, a received bundle is announced to the router and given to an application at most once, and at most one status report of its reception is made, however often it is received and however often the process is stopped; there is at most one other report per event that calls for it, and a bundle goes to a recipient only as often as the router named it. From a start or restart of the node until no task is running, the statistics count each reception as a new bundle or as a duplicate, each transfer by its outcome and each delivery, and the router is told of the outcomes.", "quantifier": "every configuration, every history with restarts at any point, every interleaving, every answer of the router and outcome of transfers, every bundle id and recipient", "why_tests_cant": "A unit test runs a handful of fixed call sequences; the claim is about every history of calls.", "anchors": ["core/dtn7/src/core/processing.rs: receive, dispatch, forward, local_delivery, send_status_report", "core/dtn7/src/core/store/sled.rs: push, add_if_unknown, remove", "core/dtn7/src/lib.rs: STATS", "core/dtn7/src/core/mod.rs: DtnStatistics"]}
{"id": "C136", "title": "The janitor keeps running", "statement": "On a node with a janitor interval, the janitor runs again and again for as long as the process lives: no bundle, no answer of the router, no failing transfer and no other task on the node stops its timer or blocks one of its runs for ever.", "quantifier": "every configuration, every execution that goes on for ever, every interleaving with other tasks, every bundle and every answer of the router; of the scheduler only that the janitor's own tasks are not neglected for ever", "why_tests_cant": "A unit test runs a handful of fixed call sequences; the claim is about every history of calls.", "anchors": ["core/dtn7/src/dtnd/cron.rs: spawn_timer", "core/dtn7/src/dtnd/janitor.rs: janitor, spawn_janitor", "core/dtn7/src/dtnd/daemon.rs: start_dtnd", "core/dtn7/src/core/mod.rs: process_bundles", "core/dtn7/src/core/processing.rs: forward"]}
{"id": "C137", "title": "What has expired goes, what waits is tried again", "statement": "As time passes, every stored bundle whose lifetime has ended is removed, every bundle that waits to be forwarded is taken to the router again as long as it waits, and every discovered neighbour that is not heard of any more is dropped, without anybody calling anything: the janitor sees to it, whatever else happens on the node.", "quantifier": "every execution that goes on for ever, every interleaving with other tasks, every bundle id, deadline and neighbour; of the scheduler only that the janitor's own tasks are not neglected for ever", "why_tests_cant": "A unit test runs a handful of fixed call sequences; the claim is about every history of calls.", "anchors": ["core/dtn7/src/dtnd/janitor.rs: janitor", "core/dtn7/src/dtnd/cron.rs: spawn_timer", "core/dtn7/src/core/mod.rs: process_bundles, process_peers", "core/dtn7/src/core/processing.rs: forward", "core/dtn7/src/core/bundlepack.rs: BundlePack"]}
{"id": "C138", "title": "Every call comes to an end, with the persistent store", "statement": "With the database as store, everything a call sets off comes to an end, whatever other calls are made at the same time and however often the process was stopped before, as long as it is not stopped again: nothing waits for ever, nothing loops, and a node that gets no further calls comes to rest.", "quantifier": "every configuration, every history with restarts at any point, every call, every interleaving with other tasks, every answer of the router and outcome of transfers; of the scheduler only that the call's own tasks are not neglected for ever", "why_tests_cant": "A unit test runs a handful of fixed call sequences; the claim is about every history of calls.", "anchors": ["core/dtn7/src/core/processing.rs: receive, dispatch, forward, handle_bundle_forwarding", "core/dtn7/src/core/mod.rs: process_bundles", "core/dtn7/src/core/store/sled.rs: push, remove, update_metadata"]}
{"id": "C139", "title": "The janitor keeps running and does its work, with the persistent store", "statement": "With the database as store, the janitor runs again and again in every life of the process, whatever the database holds when it starts: expired bundles are removed, waiting bundles are taken to the router again and lost neighbours are dropped, also if the bundles were received by an earlier process.", "quantifier": "every configuration, every history with restarts at any point and crashes between the writes of the store, every execution that goes on for ever after it, every interleaving, bundle and answer of the router; of the scheduler only that the janitor's own tasks are not neglected for ever", "why_tests_cant": "A unit test runs a handful of fixed call sequences; the claim is about every history of calls.", "anchors": ["core/dtn7/src/dtnd/cron.rs: spawn_timer", "core/dtn7/src/dtnd/janitor.rs: janitor, spawn_janitor", "core/dtn7/src/core/mod.rs: process_bundles, process_peers", "core/dtn7/src/core/processing.rs: forward", "core/dtn7/src/core/store/sled.rs: remove, get_bundle, get_metadata"]}
{"id": "C140", "title": "No bundle kept for another node is forgotten", "statement": "A node keeps every bundle for another node that is in its store waiting for transmission: once the tasks for its reception or submission have ended, whatever has failed, it is marked as waiting, it goes on being so until it leaves the store or comes in again, and the janitor takes it to the router again and again.", "quantifier": "every configuration, every history of calls, every interleaving of their tasks, every outcome of transmissions, every answer of the router, every bundle for another node; for the last part every execution that goes on for ever", "why_tests_cant": "The failing executions depend on how tasks interleave between lock acquisitions; a test run exercises one schedule.", "anchors": ["core/dtn7/src/core/processing.rs: receive, dispatch, forward, contraindicated, transmit, send_bundle", "core/dtn7/src/core/mod.rs: process_bundles", "core/dtn7/src/core/store/mem.rs: update, forwarding"]}
{"id": "C141", "title": "TCPCL messages are those of RFC 9174", "statement": "On the wire, every TCPCL message the node writes has exactly the bytes RFC 9174 prescribes for it, with reserved bits zero, and every message laid out as the RFC prescribes is understood as that message, with reserved bits and unknown extension items that are not critical ignored, so that nodes of other implementations can be talked to.", "quantifier": "every message of every type with field values in range; every byte sequence the RFC allows for a message, whatever follows it", "why_tests_cant": "A unit test checks sample inputs; the claim is about every input, including lengths and values no sample covers.", "anchors": ["core/dtn7/src/cla/tcp/net.rs: TcpClPacket::{write,read}", "core/dtn7/src/cla/tcp/proto.rs", "core/dtn7/src/cla/tcp/mod.rs: receive_contact_header, send"]}
{"id": "C142", "title": "External convergence layer packets are the documented JSON objects", "statement": "Packets between a node and an external convergence layer module are written as the JSON objects of the documentation (field type, the documented fields, endpoint ids as a list of scheme number and address, bytes in Base64). A text is understood as a packet exactly if it is JSON of an object that is this packet by the documentation, however it is laid out (any white space, order of the fields, escapes and further fields), or of a list of its type and fields; nothing else is understood. What one side writes, the other reads back, over TCP also however the stream is cut.", "quantifier": "all packets, all texts, JSON (RFC 8259) or not, all readers of endpoint ids, all cuts of the stream", "why_tests_cant": "A unit test checks sample inputs; the claim is about every input, including lengths and values no sample covers.", "anchors": ["core/dtn7/src/cla/ecla/mod.rs: Packet, Register, Beacon, ForwardData, Registered, Error, base64", "core/dtn7/src/cla/ecla/tcp.rs: send_packet, handle_connection", "core/dtn7/src/cla/ecla/ws.rs: handle_connection", "core/dtn7/src/cla/ecla/ws_client.rs: serve"]}
{"id": "C143", "title": "External router packets are the documented JSON objects", "statement": "Packets between a node and an external router are written as JSON objects with the documented type and fields, and any JSON text of such an object (any white space, order of fields, escapes, further fields), and nothing that is not JSON, is understood as exactly that packet by the other side, in particular by the client library of this project.", "quantifier": "every packet of the external routing interface and every text", "why_tests_cant": "A unit test checks sample inputs; the claim is about every input, including lengths and values no sample covers.", "anchors": ["core/dtn7/src/routing/erouting/mod.rs: Packet", "core/dtn7/src/routing/erouting/processing.rs: handle_connection", "core/dtn7/src/routing/erouting/processing.rs: send_packet", "core/dtn7/src/routing/erouting/ws_client.rs: serve", "core/dtn7/src/core/bundlepack.rs: BundlePack", "core/dtn7/src/core/peer.rs: DtnPeer"]}
{"id": "C144", "title": "Records of bundles survive the database", "statement": "What the database keeps about a bundle is read back exactly as it was written: every record has a CBOR text, different records have different texts, any CBOR text of a record (any order of fields and constraints, any form of numbers) is read as that record, and after every history of calls, also ones cut short by a crash, every query of the store finds the records as they were last written and never stops the daemon on bytes it cannot read.", "quantifier": "every record, every order in which its set of constraints is listed, every CBOR text of it, every history of store calls and crashes", "why_tests_cant": "A unit test checks sample inputs; the claim is about every input, including lengths and values no sample covers.", "anchors": ["core/dtn7/src/core/bundlepack.rs: BundlePack", "core/dtn7/src/core/bundlepack.rs: to_cbor", "core/dtn7/src/core/bundlepack.rs: From<&[u8]> for BundlePack", "core/dtn7/src/core/store/sled.rs: push", "core/dtn7/src/core/store/sled.rs: update_metadata", "core/dtn7/src/core/store/sled.rs: remove", "core/dtn7/src/core/store/sled.rs: filter", "core/dtn7/src/core/store/sled.rs: get_metadata"]}
{"id": "C145", "title": "Nodes behind external convergence layers learn of each other", "statement": "The beacon a node gives to its external modules, carried to another node by any module that fills in the address, makes that node list the first one with its id, this address and exactly its convergence layers, ports and services, report the encounter to the router and change nothing else. A node always has a beacon to give, and never becomes its own neighbour.", "quantifier": "every set of convergence layers and services of the sender, every state of the receiver, every address, every CBOR layout of the block", "why_tests_cant": "A unit test checks sample inputs; the claim is about every input, including lengths and values no sample covers.", "anchors": ["core/dtn7/src/cla/ecla/processing.rs: generate_beacon", "core/dtn7/src/cla/ecla/processing.rs: handle_packet", "core/dtn7/src/ipnd/services.rs: ServiceBlock", "core/dtn7/src/lib.rs: peers_add"]}
{"id": "C146", "title": "The store on directory and database behaves like the others", "statement": "With the store `sneakers`, after any calls, with or without success, exactly the bundle last pushed under an id and not removed since is returned; its metadata has the id, source, destination, times and flags of the bundle and the constraints last written; listings are exact; bundles waiting to be forwarded are among the pending ones; and a removed bundle stays known as deleted.", "quantifier": "every history of calls and outcomes, every content of directory and database, every database that keeps what it is given", "why_tests_cant": "A unit test runs a handful of fixed call sequences; the claim is about every history of calls.", "anchors": ["core/dtn7/src/core/store/sneakers.rs: SneakersBundleStore", "core/dtn7/src/core/store/sneakers.rs: eid_from_strings", "core/dtn7/src/core/store/mod.rs: BundleStore"]}
{"id": "C147", "title": "Spray and wait spends its copies and delivers directly when it waits", "statement": "Asked where to send a bundle that has copies left, the spray and wait router gives one copy each to the neighbours that do not have the bundle yet, as many as there are copies to give, keeping one. When only that one is left it sends the bundle to its destination as soon as the destination is a neighbour, and asks for the bundle to be deleted afterwards. A neighbour that is counted as served was sent a copy.", "quantifier": "every number of copies, every history of commands to the router, every list of neighbours and convergence layers and every bundle", "why_tests_cant": "A unit test runs a handful of fixed call sequences; the claim is about every history of calls.", "anchors": ["core/dtn7/src/routing/sprayandwait.rs: handle_sender_for_bundle", "core/dtn7/src/routing/sprayandwait.rs: handle_new_bundle"]}
{"id": "C148", "title": "No bundle kept for another node is forgotten by a node with a persistent store", "statement": "With the persistent store, when a node comes to rest, every bundle in the database that is for another node waits to be forwarded, whatever calls were made and whatever failed; and from then on it goes on waiting as long as it is in the database and does not come in again, also if the process is stopped and started again. So the periodic task takes it to the router again and again, also a bundle that an earlier process has received.", "quantifier": "all histories of a node with restarts at any points, then all calls, schedules, failures and stops, and all infinite executions of the node with its periodic task", "why_tests_cant": "A unit test runs a handful of fixed call sequences; the claim is about every history of calls.", "anchors": ["core/dtn7/src/core/processing.rs: receive", "core/dtn7/src/core/processing.rs: forward", "core/dtn7/src/core/store/sled.rs: push", "core/dtn7/src/core/store/sled.rs: remove", "core/dtn7/src/core/mod.rs: process_bundles"]}
{"id": "C149", "title": "A node with epidemic routing gives a bundle to each neighbour once", "statement": "With epidemic routing, a node hands a bundle to a convergence layer for a neighbour at most once, and once more for every failed transfer it has told its router of; so no neighbour gets a bundle successfully twice, however often the bundle is received, submitted or retried. A bundle that comes from a neighbour is never handed back to it.", "quantifier": "all calls, schedules, failures, convergence layer outcomes and peers of a node that talks to an epidemic router, and all bundles and neighbours", "why_tests_cant": "The failing executions depend on how tasks interleave between lock acquisitions; a test run exercises one schedule.", "anchors": ["core/dtn7/src/routing/epidemic.rs: handle_routing_cmd", "core/dtn7/src/routing/epidemic.rs: sending_failed", "core/dtn7/src/core/processing.rs: forward", "core/dtn7/src/core/processing.rs: receive"]}
{"id": "C150", "title": "A node with spray and wait routing keeps to its budget of copies", "statement": "With spray and wait routing, a node hands a bundle to nodes other than its destination at most as often as its budget of copies allows, apart from failed transfers, and a bundle that was not created on the node is handed to its destination only.", "quantifier": "all calls, schedules, failures, convergence layer outcomes and peers of a node that talks to a spray and wait router, and all bundles", "why_tests_cant": "The failing executions depend on how tasks interleave between lock acquisitions; a test run exercises one schedule.", "anchors": ["core/dtn7/src/routing/sprayandwait.rs: handle_sender_for_bundle", "core/dtn7/src/routing/sprayandwait.rs: handle_notification", "core/dtn7/src/core/processing.rs: forward", "core/dtn7/src/core/processing.rs: receive"]}
{"id": "C151", "title": "A node hands bundles only to whom its router may choose, and lets go of them only when they have arrived there", "statement": "With the sink router a node sends nothing. With flooding, epidemic routing and spray and wait it hands bundles only to neighbours that could be used when the router was asked, with static routing only to the neighbour of the first route that applied. A bundle is taken out of the store on the word of the router never with sink and flooding; with epidemic routing and spray and wait only after a copy was transferred to the node it is addressed to; with static routing only after a copy was transferred along a route that applied, and never if it is for a group.", "quantifier": "all calls, schedules, failures, peers, routes files and reloads, with the store in memory or the persistent store, also over restarts", "why_tests_cant": "The failing executions depend on how tasks interleave between lock acquisitions; a test run exercises one schedule.", "anchors": ["core/dtn7/src/routing/sink.rs: handle_routing_cmd", "core/dtn7/src/routing/flooding.rs: handle_routing_cmd", "core/dtn7/src/routing/epidemic.rs: handle_routing_cmd", "core/dtn7/src/routing/sprayandwait.rs: handle_sender_for_bundle", "core/dtn7/src/routing/static_routing.rs: handle_routing_cmd", "core/dtn7/src/core/processing.rs: forward"]}
{"id": "C152", "title": "Routing limits hold over restarts", "statement": "A node keeps to the limits of its router also if it is stopped and started again at any time with the persistent store: with epidemic routing no neighbour gets a bundle twice, no bundle goes back to where it came from, and with spray and wait the budget of copies holds for all starts together.", "quantifier": "all calls, schedules, crash points, restarts, failures and peers of a node with either store that talks to an epidemic or a spray and wait router, and all bundles and neighbours", "why_tests_cant": "A unit test runs a handful of fixed call sequences; the claim is about every history of calls.", "anchors": ["core/dtn7/src/routing/epidemic.rs: EpidemicRoutingAgent", "core/dtn7/src/routing/sprayandwait.rs: SprayAndWaitRoutingAgent", "core/dtn7/src/dtnd/daemon.rs: start_dtnd", "core/dtn7/src/core/processing.rs: forward"]}
{"id": "C153", "title": "A network of spray and wait nodes does not multiply a bundle", "statement": "In a network whose nodes all use spray and wait routing, and in which what comes in at a node was handed over for it at another (copies may be lost, duplicated, delayed and reordered), the number of nodes besides the destination that take in a bundle is at most the number of copies configured at its source less one, for each time the bundle was submitted or taken in at the source, plus one for each failed transfer of the bundle that a router in the network was told of. Restarts of nodes do not change this.", "quantifier": "all networks of any number of nodes, all executions of the nodes with either store and any restarts, all bundles and neighbours", "why_tests_cant": "A unit test runs a handful of fixed call sequences; the claim is about every history of calls.", "anchors": ["core/dtn7/src/routing/sprayandwait.rs: handle_sender_for_bundle", "core/dtn7/src/routing/sprayandwait.rs: handle_notification", "core/dtn7/src/core/processing.rs: forward", "core/dtn7/src/core/processing.rs: receive"]}
{"id": "C154", "title": "The web pages show what the node has, and nothing on them is taken for markup", "statement": "The page of bundles lists every bundle that is not marked as deleted, once, with its size and a link; following the link downloads that bundle. The page of neighbours lists every neighbour once, with name, kind, address and the time since the last contact. The first page tells the settings and how many neighbours and bundles there are. Whatever ids, names and addresses other nodes choose, they add no tags or links to the pages and are shown as they are.", "quantifier": "all contents of the store and of the table of neighbours, all ids, names, addresses and settings, all clock values", "why_tests_cant": "A unit test checks sample inputs; the claim is about every input, including lengths and values no sample covers.", "anchors": ["core/dtn7/src/dtnd/httpd.rs: index", "core/dtn7/src/dtnd/httpd.rs: web_peers", "core/dtn7/src/dtnd/httpd.rs: web_bundles", "core/dtn7/src/dtnd/httpd.rs: download"]}
