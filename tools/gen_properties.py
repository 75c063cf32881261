import json
P=[]
def p(title, statement, quantifier, why, anchors):
    P.append(dict(id="C%02d"%(len(P)+1), title=title, statement=statement, quantifier=quantifier, why_tests_cant=why, anchors=anchors))
S="core/dtn7/src/"
hist="A unit test runs a handful of fixed call sequences; the claim is about every history of calls."
inp="A unit test checks sample inputs; the claim is about every input, including lengths and values no sample covers."
conc="The failing executions depend on how tasks interleave between lock acquisitions; a test run exercises one schedule."

# ---- store
p("In-memory store behaves like a map from bundle id to the last pushed bundle",
  "After any history of push / update_metadata / remove calls on the in-memory store, get_bundle(id) returns exactly the bundle most recently pushed under that id if it was not removed since, and None otherwise; has_item(id), all_ids() and count() agree with it (all_ids lists each present id exactly once, count is their number).",
  "every finite sequence of store calls with arbitrary bundles, packs and ids, starting from the empty store", hist,
  [S+"core/store/mem.rs: InMemoryBundleStore::{push,update_metadata,remove,get_bundle,has_item,all_ids,count}"])
p("Every stored bundle has metadata, and the store never forgets an id",
  "At every point of any history, each id returned by all_ids() has metadata, that metadata carries the same id, and once metadata for an id exists get_metadata(id) never returns None again.",
  "every finite sequence of store calls on the in-memory store", hist,
  [S+"core/store/mem.rs: InMemoryBundleStore::{push,remove,get_metadata}"])
p("Removal leaves a tombstone and no data",
  "A successful remove(id) makes get_bundle(id) None and leaves metadata marked Deleted, stripped of every other retention constraint except LocalEndpoint; no other id is affected. remove of an id with no bundle reports an error.",
  "every store state and every id", hist,
  [S+"core/store/mem.rs: InMemoryBundleStore::remove", S+"core/bundlepack.rs: BundlePack::clear_constraints"])
p("A deleted bundle is not accepted again",
  "The metadata kept for a deleted bundle prevents its resubmission: once a bundle was removed, pushing a bundle with the same id again does not make it available again.",
  "every history of store calls, for the in-memory and for the sled store", hist,
  [S+"core/bundlepack.rs: Constraint::Deleted", S+"core/store/mem.rs: push", S+"core/store/sled.rs: push", S+"lib.rs: store_add_bundle_if_unknown"])
p("Sled store behaves like a map with tombstones",
  "After any history of push / update_metadata / remove calls on the sled store, get_bundle, has_item, all_ids and count agree with the map of accepted pushes minus removals, and a push either fails leaving everything unchanged or stores the bundle.",
  "every finite sequence of calls on the sled store", hist,
  [S+"core/store/sled.rs: SledBundleStore"])
p("Sled store is crash consistent",
  "If the process stops between any two flushed database writes of a push or remove, reopening the database shows no stored bundle without metadata, and a bundle whose push was interrupted can be pushed again.",
  "every operation history and every crash point inside the last operation", "Crash points between two flushes are not reachable from a unit test.",
  [S+"core/store/sled.rs: push, remove, update_metadata"])
p("Retention constraints survive the sneakers bit-set encoding",
  "Converting a set of retention constraints to the database bit flags and back yields the same set, for every set; two sets with the same flags are equal.",
  "every set of retention constraints", inp,
  [S+"core/store/sneakers.rs: convert_constraints_to_hashset, convert_hashset_to_constraints"])
p("Syncing a pack with no constraints deletes, otherwise persists it",
  "BundlePack::sync removes the bundle from the store exactly when the pack holds no constraint; otherwise get_metadata afterwards returns exactly that pack, and no bundle data is changed.",
  "every store state and every pack", inp,
  [S+"core/bundlepack.rs: BundlePack::sync"])
p("Each bundle is processed at most once while it is stored",
  "However many tasks receive bundles concurrently, between two removals of an id at most one receive call for that id proceeds past the duplicate check; all others stop there and change neither the stored bundle nor its metadata.",
  "every interleaving of any number of concurrent receive calls and removals", conc,
  [S+"core/processing.rs: receive", S+"lib.rs: store_add_bundle_if_unknown"])
p("Reception statistics count every bundle exactly once",
  "After any sequence of receive calls, incoming plus dups equals the number of calls whose store access succeeded, and incoming equals the number of calls that found the id absent.",
  "every sequence of receive calls and removals", hist,
  [S+"core/processing.rs: receive", S+"core/mod.rs: DtnStatistics"])
p("The expiry sweep removes exactly the expired bundles",
  "store_delete_expired removes a bundle if and only if it is not already deleted, its lifetime is not zero and creation time plus lifetime lies before now; every other bundle and its metadata stay as they were.",
  "every store content and every clock value", inp,
  [S+"lib.rs: store_delete_expired", S+"core/bundlepack.rs: BundlePack::has_expired"])
p("The janitor forwards every pending bundle once, oldest first",
  "A janitor run with an accepting CLA calls forward for exactly the bundles whose metadata says ForwardPending and not Deleted, each once, in non-decreasing order of creation time; with no accepting CLA it forwards none.",
  "every store content", inp,
  [S+"core/mod.rs: process_bundles", S+"core/store/mod.rs: forwarding"])
# ---- processing
p("Only local or anonymous sources may transmit",
  "A bundle submitted for transmission whose source is neither dtn:none nor a registered endpoint is never dispatched, delivered or forwarded and is no longer in the store afterwards; every other one is dispatched.",
  "every node state and every bundle", inp,
  [S+"core/processing.rs: send_bundle, transmit"])
p("Dispatch delivers locally and forwards correctly",
  "Dispatching a bundle hands it to the application agent registered for its destination if there is one (unless it claims to be an administrative record and cannot be read as one), hands it to no other agent, and starts forwarding if and only if its destination is not on this node.",
  "every node state and every bundle", inp,
  [S+"core/processing.rs: dispatch, local_delivery", S+"lib.rs: is_local_node_id"])
p("A bundle never leaves the node beyond its hop limit",
  "Every copy of a bundle handed to a convergence layer that carries a hop count block has hop count at most its limit and exactly one more than the stored copy; a bundle whose limit is used up is deleted instead of being sent to the recipients the router names.",
  "every node state, bundle and router answer", inp,
  [S+"core/processing.rs: handle_hop_count_block, forward"])
p("A bundle past its lifetime is not sent",
  "forward never hands a bundle whose primary-block lifetime is exceeded when it is prepared for sending to a convergence layer; if the router names a recipient, it deletes it.",
  "every node state, clock value and router answer", inp,
  [S+"core/processing.rs: handle_primary_lifetime, forward"])
p("Bundle age grows by the time spent on this node",
  "Each copy handed to a convergence layer has its bundle age block (if present) set to the stored age plus the milliseconds since reception, and the bundle is dropped once that age in milliseconds reaches its lifetime.",
  "every node state, bundle and clock value", inp,
  [S+"core/processing.rs: update_bundle_age, handle_bundle_age_block"])
p("Every sent bundle names this node as previous node",
  "Each copy handed to a convergence layer carries exactly the local node id in its previous node block, whether or not the stored bundle had one, and all other blocks keep their contents apart from hop count and age.",
  "every bundle and node state", inp,
  [S+"core/processing.rs: handle_previous_node_block"])
p("Unknown blocks that ask to be removed are removed, and nothing else is",
  "After receiving a bundle, the stored bundle consists of exactly the received blocks minus the unknown ones flagged for removal, in order; if an unknown block asks for bundle deletion the bundle is deleted; receiving never aborts.",
  "every list of canonical blocks", inp,
  [S+"core/processing.rs: receive"])
p("Status reports are only produced when requested and permitted",
  "A status report bundle is created only if reports are enabled, the subject bundle is not an administrative record, its source is not dtn:none, its report-to is not a local endpoint and the corresponding request flag is set (or an unknown block asked for one); at most one per event; the report goes to the report-to address.",
  "every bundle, node state and processing step", inp,
  [S+"core/processing.rs: send_status_report, receive, forward, local_delivery, delete"])
p("A status report removes its subject only on delivery",
  "Receiving an administrative record removes the referenced bundle from the store only if the record asserts delivery of it, and never touches any other bundle.",
  "every administrative record and store content", inp,
  [S+"core/processing.rs: inspect_status_report, is_administrative_record_valid"])
p("A failed transmission never loses the bundle",
  "If none of the transfers attempted by forward succeeds, and neither lifetime, hop limit nor age ended the bundle, and the router did not ask for deletion without naming a recipient, the bundle is still stored and still pending for the next janitor run; a bundle is removed by a successful forward only if the router asked for that or it is a status report about itself.",
  "every node state, router answer and pattern of transfer outcomes", inp,
  [S+"core/processing.rs: forward"])
p("Transfer statistics match transfer outcomes",
  "One forward call raises outgoing by the number of successful and failed by the number of failed transfers, and produces exactly one success or failure notification to the router per attempted transfer, whatever the completion order.",
  "every list of target nodes, every outcome pattern and every completion order", conc,
  [S+"core/processing.rs: forward"])
p("Deleted bundles stay deleted while tasks run",
  "Once a bundle has been removed, no still-running forward or delivery task makes it pending again: its metadata keeps the Deleted mark until a new push.",
  "every interleaving of removals with running forward and delivery tasks", conc,
  [S+"core/processing.rs: forward, contraindicated", S+"core/store/mem.rs: update_metadata"])
# ---- application agents
p("An application agent hands out bundles in order, once each, without loss",
  "For any interleaving of bundle arrivals, pops and changes of the delivery channel, the bundles handed to the client through pop are a subsequence of the arrivals in arrival order, every arrival is handed out through exactly one of the channel and the queue or is still queued, and none is handed out twice.",
  "every sequence of push / pop / set_delivery_addr / clear_delivery_addr calls and channel outcomes", hist,
  [S+"core/application_agent.rs: SimpleApplicationAgent"])
p("Endpoint registration is idempotent and unique",
  "After any sequence of register / unregister calls every EID is registered at most once, an EID is found exactly when its last call was a register, and registering an already registered EID keeps its undelivered bundles.",
  "every sequence of register / unregister / delivery calls", hist,
  [S+"core/mod.rs: DtnCore::{register_application_agent,unregister_application_agent,get_endpoint_mut,is_in_endpoints}"])
p("A fetched singleton bundle leaves the store",
  "When a client pops a bundle (or it is delivered through the channel) its copy is removed from the store exactly if its destination is a singleton endpoint.",
  "every store, queue and bundle", inp,
  [S+"core/application_agent.rs: push, pop", S+"lib.rs: store_remove_if_singleton_bundle"])
# ---- peers
p("The peer table has one entry per node and reports new peers correctly",
  "After any sequence of peer additions, removals and touches, each node name has at most one entry, which is the one added last; peers_add answers true exactly if the node was unknown; and two different nodes never share an entry.",
  "every sequence of peer table calls", hist,
  [S+"lib.rs: peers_add, peers_remove, peers_known, peers_get_for_node"])
p("Static peers are never dropped, dynamic peers exactly on timeout",
  "The periodic peer check keeps every static peer, keeps a dynamic peer exactly while the time since last contact is below its timeout (twice the announced beacon period if it announced one and no custom timeout applies), and tells the router about every dropped peer and no other.",
  "every peer table and clock value", inp,
  [S+"core/mod.rs: process_peers", S+"core/peer.rs: DtnPeer::still_valid"])
p("A dynamic peer is dropped on the fourth failed transmission",
  "A dynamic peer is removed from the table when the fourth failure since it was last (re)announced is reported and not before; static peers are never removed by failures.",
  "every sequence of failure reports and announcements", hist,
  [S+"core/peer.rs: report_fail, failed_too_much", S+"core/processing.rs: forward"])
p("The convergence layer chosen for a peer is usable",
  "The sender task chosen for a peer names a CLA the peer offers and this node runs and which accepts bundles, its destination is the peer's address with the announced port (or the CLA's default port), and a task is produced whenever such a CLA exists.",
  "every peer and every set of running CLAs", inp,
  [S+"core/peer.rs: DtnPeer::first_cla"])
# ---- routing
p("Epidemic routing offers a bundle to each peer at most once unless sending failed",
  "Along any history of routing requests and notifications, a peer is selected for a bundle again only if a failure for that bundle and peer was reported since it was last selected.",
  "every history of routing commands and peer tables", hist,
  [S+"routing/epidemic.rs: EpidemicRoutingAgentCore"])
p("Epidemic routing never returns a bundle to the node it came from",
  "After an incoming-bundle notification naming a previous node, that node is not selected for the bundle unless a failure for it was reported.",
  "every history of routing commands", hist,
  [S+"routing/epidemic.rs: IncomingBundle handling"])
p("Epidemic routing serves every usable new peer, and only the destination if it is a neighbour",
  "A request selects exactly the peers with a usable CLA not yet served; if the destination node itself is among them only it is selected and deletion is requested. A peer counts as served only if it was actually selected.",
  "every peer table, history and bundle", inp,
  [S+"routing/epidemic.rs: SenderForBundle handling"])
p("Spray and wait never exceeds its copy budget",
  "Over any history without failures, a bundle created here is handed to at most MAX_COPIES - 1 relays (plus direct delivery), and a bundle received from elsewhere only to its destination.",
  "every history of routing commands", hist,
  [S+"routing/sprayandwait.rs"])
p("A failed spray transfer undoes exactly that transfer",
  "After a sending-failed notification for a peer, that peer may be selected again, every other served peer stays served, and the copy counter is what it would be had the failed transfer not been made.",
  "every history of routing commands", hist,
  [S+"routing/sprayandwait.rs: SendingFailed handling"])
p("Static routing follows the first matching route",
  "The peer selected is the via of the first route in file order whose source and destination patterns match and whose via is a usable neighbour; at most one peer is selected, none if no route matches.",
  "every route list, peer table and bundle", inp,
  [S+"routing/static_routing.rs"])
p("Flooding selects every usable peer and sink none",
  "Flooding answers every request with exactly the usable peers and never asks for deletion; sink answers with no peers and never asks for deletion.",
  "every peer table and bundle", inp,
  [S+"routing/flooding.rs", S+"routing/sink.rs"])
p("External routing answers go to the request that asked",
  "A response from the external router is delivered to the request for the bundle it names, each request is answered at most once, and a request without response ends with no peers and no deletion.",
  "every interleaving of requests, responses and timeouts", conc,
  [S+"routing/erouting/processing.rs: sender_for_bundle, handle_packet"])
# ---- MTCP
p("MTCP framing round-trips",
  "Encoding a serialised bundle as an MTCP frame and decoding the bytes gives back exactly the bundle's bytes and consumes exactly the frame, for every length; data that is not a serialised bundle (shorter than 9 bytes or not ending in a CBOR break code) is rejected.",
  "every byte string", inp,
  [S+"cla/mtcp.rs: MPDU, MPDUCodec"])
p("MTCP decoding does not depend on how the stream is cut",
  "Feeding a byte stream to the decoder in any sequence of chunks yields the same frames in the same order as feeding it at once; a concatenation of encoded frames decodes to exactly those frames.",
  "every byte stream and every way of splitting it", "There are exponentially many ways to split a stream; a test picks one.",
  [S+"cla/mtcp.rs: MPDUCodec::decode"])
p("MTCP decoding rejects garbage without crashing",
  "For every byte string the decoder either asks for more input, returns a frame made of bytes it received, or fails; it never panics, never reads beyond the buffer and never returns a frame from a header that is not a byte-string header.",
  "every byte string", inp,
  [S+"cla/mtcp.rs: MPDUCodec::decode, CBOR header parsing"])
# ---- TCPCL
p("TCPCL messages round-trip",
  "Writing any well-formed TCPCL message and reading the bytes back yields the same message and consumes exactly those bytes, also when followed by further messages.",
  "every message of every type with field values in range", inp,
  [S+"cla/tcp/net.rs: TcpClPacket::{write,read}", S+"cla/tcp/proto.rs"])
p("TCPCL parsing never crashes and never over-reads",
  "For every byte stream the reader either returns a message built from a prefix of it or an error; arithmetic on received lengths never under- or overflows.",
  "every byte stream", inp,
  [S+"cla/tcp/net.rs: TcpClPacket::read, receive_contact_header"])
p("TCPCL segmentation and reassembly deliver exactly the bundle bytes",
  "For every bundle and every positive segment size, the receiver reassembles exactly the sent bytes from the segments the sender produces, with the start flag only on the first and the end flag only on the last segment, no segment longer than the peer's limit.",
  "every byte string and every negotiated segment size", inp,
  [S+"cla/tcp/mod.rs: TcpSession::{send_bundle,receive}"])
p("A TCPCL transfer is reported successful only if fully acknowledged",
  "A send is reported successful only after the peer acknowledged the full length of the bundle (or refused it as already present), and every send request gets at most one result.",
  "every sequence of messages from the peer, in any order", "Peers may send any message at any time; tests use well-behaved peers.",
  [S+"cla/tcp/mod.rs: TcpSession::{receive,send}"])
p("TCPCL acknowledges exactly the bytes received so far",
  "The acknowledgement sent for each segment carries the transfer id of the segment and the number of bytes received so far for that transfer; a segment out of sequence or for another transfer is rejected and ends or is refused, never silently merged into a bundle.",
  "every sequence of received segments", hist,
  [S+"cla/tcp/mod.rs: TcpSession::receive"])
p("An idle TCPCL session is kept alive",
  "When no message arrived for the negotiated keepalive interval a keepalive is sent, and the session is terminated only if a further interval passes in silence; the interval is the minimum of both sides' and zero disables it.",
  "every sequence of timeouts and messages", hist,
  [S+"cla/tcp/mod.rs: TcpSession::run, negotiate_session"])
# ---- ECLA
p("External CLA names are unique and follow the connection",
  "After any sequence of connects, packets and disconnects of external CLA modules, every active module is registered as a CLA under its name, no two active modules share a name, names are 1..64 bytes, and after a module disconnects its CLA is gone.",
  "every sequence of connection events", hist,
  [S+"cla/ecla/processing.rs: handle_connect, handle_packet, handle_disconnect"])
p("External CLA packets are framed without loss",
  "The length-prefixed framing of the external CLA TCP transport returns exactly the packets sent, in order, whatever the chunking.",
  "every list of packets and every way of splitting the stream", inp,
  [S+"cla/ecla/tcp.rs"])
p("Binary payloads survive the text encoding of external CLA packets",
  "Base64 encoding of bundle data in external CLA packets decodes to the same bytes, for every byte string.",
  "every byte string", inp,
  [S+"cla/ecla/mod.rs: base64 module"])
# ---- IPND
p("Discovery beacons round-trip",
  "Serialising any beacon and deserialising it yields the same beacon, with flags that state exactly which optional parts are present; on the wire it is the CBOR array of its parts in the documented order.",
  "every beacon", inp,
  [S+"ipnd/beacon.rs: Beacon::{serialize,deserialize}"])
p("Custom discovery services round-trip and bad ones are rejected",
  "Every custom service accepted by build_custom_service decodes to the values given; values outside the documented limits are rejected; decoding never crashes on any received payload.",
  "every tag and payload", inp,
  [S+"ipnd/services.rs: ServiceBlock::{build_custom_service,convert_services}"])
p("Beacon sequence numbers advance by one per beacon and destination",
  "Consecutive beacons to one discovery destination carry consecutive sequence numbers (wrapping after the largest), independent of other destinations.",
  "every number of beacons and every destination set", hist,
  [S+"dtnconfig.rs: update_beacon_sequence_number", S+"lib.rs: get_sequence", S+"ipnd/neighbour_discovery.rs: announcer"])
p("A node never becomes its own peer through discovery, and keeps announced peers fresh",
  "Processing a received beacon ignores beacons of this node; any other beacon leaves the sender in the peer table with its address, period and CLAs, resets its failure count and last-contact time, and notifies the router.",
  "every peer table and beacon", inp,
  [S+"ipnd/neighbour_discovery.rs: receiver"])
# ---- helpers / http
p("Store digests depend only on the set of known bundles",
  "Two nodes that know the same set of bundle ids compute the same digest input, whatever order the bundles arrived in, and different sets give different digest inputs.",
  "every pair of stores", inp,
  [S+"core/helpers.rs: get_complete_digest, get_digest_of_bids"])
p("Control routes are only reachable from the local host",
  "With the unsafe option off, a request from a non-loopback address to any route that changes node state (registering, sending, deleting, peer changes, routing commands, external CLA and router sockets) is refused.",
  "every route and every remote address", inp,
  [S+"dtnd/httpd.rs: RequireLocalhost, spawn_httpd"])
p("HTTP pull fetches exactly the missing bundles",
  "A pull round against a peer requests exactly the ids the peer lists and this node does not store, and nothing if the digests are equal.",
  "every pair of id sets", inp,
  [S+"cla/httppull.rs"])
p("A web socket client receives what it subscribed to, in its chosen mode",
  "After any sequence of client commands the session delivers bundles of exactly the endpoints subscribed and not unsubscribed since, encoded in the mode chosen last; ending the connection releases every subscription. Every command is answered with what it did or why it was refused.",
  "every sequence of client messages", hist,
  [S+"dtnd/ws.rs: WsAASession"])
p("Discovery destinations are normalised and never empty",
  "add_destination accepts exactly addresses of an enabled address family, adds the default port when none is given, and check_destinations supplies the default for each enabled family when none was configured.",
  "every destination string and configuration", inp,
  [S+"dtnconfig.rs: add_destination, check_destinations"])
p("Peer URLs are parsed faithfully",
  "For every CLA name, host, port and node name, parsing the URL built from them gives a static peer with exactly these, and malformed URLs are rejected with an error.",
  "every URL", inp,
  [S+"core/helpers.rs: parse_peer_url"])
# ---- appended while modelling
p("TCPCL messages arriving in pieces are handled whatever else happens",
  "A TCPCL session acts on a received message in the same way whether its bytes arrive at once or in pieces, and whatever send requests and timer events happen between the pieces; no received byte is lost or read twice.",
  "every byte stream, every way of cutting it into pieces and every interleaving with local events", conc,
  [S+"cla/tcp/mod.rs: TcpSession::run", S+"cla/tcp/net.rs: TcpClReceiver::read"])
p("Store listings are exact",
  "Listing bundles by retention constraints returns each id whose metadata has all the constraints exactly once and no other; the forwarding list and the pending list are those with the corresponding constraints, and the list of all packs is the metadata of every known id.",
  "every history of store calls (and crashes, for the persistent store) and every constraint set", hist,
  [S+"core/store/mem.rs: filter, pending, bundles", S+"core/store/sled.rs: filter, pending, bundles", S+"core/store/mod.rs: forwarding"])
p("Adding a bundle only if it is unknown never overwrites",
  "store_add_bundle_if_unknown answers true exactly if no bundle with this id is available; if it answers true the bundle is stored and nothing else changed, otherwise the store is unchanged.",
  "every history of store calls and every bundle", hist,
  [S+"lib.rs: store_add_bundle_if_unknown"])
p("The routing agent answers every request",
  "Until it is told to shut down, the routing agent answers every request for senders, whatever bundles, peers, notifications and commands it was given before.",
  "every history of commands, for every built-in routing agent", hist,
  [S+"routing/epidemic.rs", S+"routing/sprayandwait.rs", S+"routing/static_routing.rs", S+"routing/flooding.rs", S+"routing/sink.rs"])
p("TCPCL refuses a transfer only if it has the bundle",
  "A first segment is refused exactly if refusing existing bundles is switched on and the segment announces the id of a bundle in the store; otherwise it is acknowledged.",
  "every history of a session and every segment", hist,
  [S+"cla/tcp/mod.rs: TcpSession::receive"])
p("The static routes file is read faithfully",
  "The routes in force are exactly the lines 'index source destination via' of the routes file in file order, whatever blanks separate the words; empty lines and comments are skipped; a printed route is read back as the same route.",
  "every file", inp,
  [S+"routing/static_routing.rs: parse_route_from_str"])
p("Bundles are only taken out of the store for a reason",
  "Whenever a bundle leaves the store, one of these holds, given what happened before: a client asked for its deletion; it has a single recipient and was given to an application; its lifetime (by the janitor's clock) is over; the router asked for deletion and either named no recipient or a transfer of it to one of the named recipients succeeded; a status report about it came in; it was submitted with a source that is neither anonymous nor registered; it has an unknown block asking for deletion; lifetime, hop limit or age are exceeded; or it claims to be an administrative record and is none.",
  "every execution of a node: all calls, all interleavings of all tasks, all router answers and transfer outcomes", conc,
  [S+"core/processing.rs:delete", S+"core/processing.rs:forward", S+"core/application_agent.rs:pop", S+"lib.rs:store_remove"])
p("A bundle is announced and delivered at most once per reception",
  "The number of times a bundle id is announced to the router, and the number of times it is given to an application agent, never exceeds the number of receptions of that id as a new bundle plus the number of client calls submitting it.",
  "every execution of a node: all calls, all interleavings of all tasks, all router answers", conc,
  [S+"core/processing.rs:dispatch", S+"core/processing.rs:local_delivery"])
p("Copies go only to the recipients the router named",
  "For every bundle and every recipient (address, agent, node), the number of copies handed to a convergence layer never exceeds the number of times the router named that recipient for the bundle.",
  "every execution of a node: all calls, all interleavings of all tasks, all router answers", conc,
  [S+"core/processing.rs:forward"])
p("The delivery statistic counts deliveries",
  "When no task is running, the delivered statistic is the number of times a bundle was handed to the agent of a local endpoint.",
  "every execution of a node", conc,
  [S+"core/processing.rs:local_delivery", S+"core/mod.rs:DtnStatistics"])
p("A stored bundle stays stored until it is removed",
  "Between any two moments of an execution, a bundle that was stored at the first is stored at the second, or a removal of it was recorded in between (and every removal has one of the reasons of C68).",
  "every execution of a node: all calls, all interleavings of all tasks, all router answers and transfer outcomes", conc,
  [S+"core/processing.rs:forward", S+"core/store/mem.rs:remove", S+"lib.rs:store_remove"])
p("One external router at a time",
  "At most one external router is served at a time; a router that connects while another is served is refused, and once the router's connection ends the next router that connects is served.",
  "every sequence of connection events", conc,
  [S+"routing/erouting/processing.rs: handle_connection, disconnect"])
p("One external CLA module cannot disturb the others",
  "Whatever packets one external CLA module sends, other modules can still connect, register, exchange bundles and disconnect.",
  "every sequence of packets of one module and events of others", conc,
  [S+"cla/ecla/processing.rs: handle_packet, handle_disconnect", S+"cla/ecla/ws.rs: handle_connection"])
p("External CLA operations never wait for each other forever",
  "Packets, connects, disconnects, announcements and bundle submissions of the external CLA interface always finish, whatever runs beside them.",
  "every set of concurrent operations and every schedule", conc,
  [S+"cla/ecla/processing.rs", S+"cla/ecla/ws.rs", S+"cla/external.rs"])
p("A bundle for an external CLA is queued for exactly its modules",
  "A bundle handed to the external CLA with some name is queued once for exactly the connected modules registered under that name, and the transfer is reported successful if and only if it was queued for such a module.",
  "every state and every bundle", hist,
  [S+"cla/external.rs: accept", S+"cla/ecla/processing.rs: scheduled_submission"])
p("Modules receive discovery beacons if and only if they asked for them",
  "Every announcement is sent to each active external CLA module that enabled beacons at registration, once, and to no other.",
  "every state and announcement", hist,
  [S+"cla/ecla/processing.rs: announce"])
p("External CLA registration is answered truthfully",
  "A registration is accepted, and answered with the node's names, if and only if the module name is 1 to 64 bytes long and no convergence layer has it yet; otherwise the module gets an error and is closed.",
  "every state and every registration packet", hist,
  [S+"cla/ecla/processing.rs: handle_packet"])
p("Statically configured peers survive discovery",
  "A peer configured statically stays in the peer table, as configured, whatever beacons arrive, transfers fail and timeouts pass, until it is changed or removed explicitly.",
  "every history of beacons, failures, timeouts and other peer changes", hist,
  [S+"ipnd/neighbour_discovery.rs: receiver", S+"lib.rs: peers_add", S+"core/mod.rs: process_peers"])
p("Announcing goes on whatever services are registered",
  "A node keeps sending discovery beacons whatever services are registered with it at run time.",
  "every history of rounds and service registrations", hist,
  [S+"ipnd/neighbour_discovery.rs: announcer", S+"ipnd/beacon.rs: Beacon::add_custom_service", S+"lib.rs: service_add"])
p("Beacons describe the node",
  "Every beacon sent names the node, its convergence layers with their ports, its services (configured or registered at run time) and, if enabled, its interval.",
  "every configuration and history", hist,
  [S+"ipnd/neighbour_discovery.rs: announcer", S+"dtnconfig.rs: DtnConfig.services", S+"lib.rs: service_add"])
p("Neighbours learn what a node announces",
  "Whenever a beacon sent by one node reaches another node, the other node lists the sender as a peer with its id, the sender's address, exactly its convergence layers, ports and services, and its interval.",
  "every pair of nodes, every configuration and history", hist,
  [S+"ipnd/neighbour_discovery.rs: announcer, receiver", S+"ipnd/beacon.rs", S+"ipnd/services.rs"])
p("HTTP calls do what they answer",
  "A call of the HTTP interface that is answered with success has exactly the effect it names: the endpoint is registered or unregistered, the longest waiting bundle is handed out, the bundle is deleted, submitted or received, the neighbour is added or removed, the command is passed to the router; a call that is not answered with success changes nothing clients can see.",
  "every request, in every state of the node", inp,
  [S+"dtnd/httpd.rs: register, unregister, endpoint, delete, download, insert_post, send_post, push_post"])
p("Every HTTP request is answered",
  "Every request to the HTTP interface gets an answer, whatever its path, query and body.",
  "every request, in every state of the node", inp,
  [S+"dtnd/httpd.rs: send_post, http_peers_add, register, endpoint"])
p("A peer's answers do not keep bundles from being pulled from others",
  "In every round of pulling bundles over HTTP every known peer is asked, at its address and the port it announced for this, whatever other peers answer or fail to answer.",
  "every sequence of rounds, peers and answers", hist,
  [S+"cla/httppull.rs: http_puller_loop, http_pull_bundles, http_pull_from_node"])
p("Bundles handed to a web socket session reach the client",
  "Every bundle handed to a client's web socket session is sent to the client, in the order in which the bundles arrived and in the mode chosen, and is not lost.",
  "every history of events, any number of clients and endpoints", conc,
  [S+"dtnd/ws.rs: handle_socket, handle_bundle_delivery", S+"core/application_agent.rs: push"])
p("A client that subscribes gets what was waiting",
  "When a client subscribes to an endpoint, the bundles that were waiting there are sent to it, before those that arrive later.",
  "every history of events and every number of waiting bundles", hist,
  [S+"dtnd/ws.rs: fetch_new_bundles, handle_message"])
p("Web socket messages are submitted as given or refused",
  "A binary message of a client leads to exactly the bundle it describes being submitted, with an answer of success; a message that describes none submits nothing and is answered with an error.",
  "every binary message in every mode", inp,
  [S+"dtnd/ws.rs: handle_message"])
p("Settings follow command line, file and defaults",
  "A daemon that comes up has, for working directory, web port, the three time spans, routing algorithm, store, endpoints and static peers, the value given on the command line, or else the one in the configuration file, or else the documented default; and its flags are those asked for.",
  "all command lines, all configuration files, all results of the libraries that parse addresses, endpoint ids and time spans", inp,
  [S+"bin/dtnd.rs: main", S+"dtnconfig.rs: DtnConfig::from", S+"dtnconfig.rs: DtnConfig::new"])
p("The node has the id asked for",
  "A node name given by the user becomes a dtn node id, a number an ipn node id, and anything else has to be a complete node id, otherwise the daemon refuses to start; without a name the node gets a random one.",
  "all texts, on the command line and in the configuration file", inp,
  [S+"bin/dtnd.rs: main", S+"dtnconfig.rs: DtnConfig::from", S+"core/helpers.rs: is_valid_node_name"])
p("Convergence layers get the settings written down",
  "Every convergence layer named on the command line or in the file is configured with exactly the settings given there; global settings are in force for the layer they name and override local ones, as the help says.",
  "all lists of layers and settings", inp,
  [S+"bin/dtnd.rs: main", S+"dtnconfig.rs: DtnConfig::from", S+"cla/tcp/mod.rs: TcpConvergenceLayer::new"])
p("Services are offered as written down",
  "Every service given by tag and payload is offered with this payload; a tag given twice is refused.",
  "all lists of services, on the command line and in the file", inp,
  [S+"bin/dtnd.rs: main", S+"dtnconfig.rs: DtnConfig::from"])
p("Routing options are in force as written down",
  "Every routing option of the form algorithm.key=value is in force, the last one for each key, and any other text is refused; settings of the file stay unless overridden.",
  "all lists of texts given as routing options, all files", inp,
  [S+"bin/dtnd.rs: main"])
p("Settings that make no sense are refused",
  "A daemon does not come up with a setting it cannot understand: time spans, peer URLs, destinations, port numbers, algorithms and stores.",
  "all command lines and configuration files", inp,
  [S+"bin/dtnd.rs: main", S+"dtnconfig.rs: DtnConfig::from"])
p("A daemon runs what is configured",
  "After start-up the daemon has the configured store and routing algorithm, one agent for the node and each endpoint, the configured static peers, the configured convergence layers with their ports in this order, and runs the janitor, the discovery and the connectors for external layers exactly if they are switched on; it starts whenever all of these exist and can be read.",
  "all configurations", inp,
  [S+"dtnd/daemon.rs: start_dtnd", S+"cla/mod.rs"])
p("A convergence layer answers every transfer exactly once",
  "Whoever asks a convergence layer (MTCP, UDP, HTTP, external, and the layers that only receive) to transfer a bundle to a neighbour gets exactly one answer: success, failure, or an error because the layer is gone. The answer never changes, and no transfer waits for ever once the operations of the operating system it needs have returned, also when connections fail, tasks panic or the layer is shut down in between.",
  "all layers, all sequences of transfers and shutdowns, all interleavings of their tasks, all results of connecting, writing and sending", conc,
  [S+"cla/mod.rs: ClaSenderTask::transfer", S+"cla/mtcp.rs: MtcpConvergenceLayer::new, mtcp_send_bundles", S+"cla/udp.rs: UdpConvergenceLayer::new, udp_send_bundles", S+"cla/http.rs: HttpConvergenceLayer::new, http_send_bundles", S+"cla/external.rs: ExternalConvergenceLayer::new"])
p("A successful transfer means the bundle was handed over",
  "If a convergence layer reports the transfer of a bundle as successful, the complete bundle was given to the network for exactly the address of the neighbour, once: as one datagram (UDP), in one request the neighbour accepted (HTTP), to the external module that confirmed it, or as one whole frame on one connection (MTCP), such that the receiving node, however the bytes are cut on the way, gets exactly the bundles of the successful transfers in order.",
  "all sequences of transfers, all interleavings, all partial writes, failures and reconnections, all ways of cutting the byte stream", conc,
  [S+"cla/mtcp.rs: mtcp_send_bundles, MPDUCodec::decode", S+"cla/udp.rs: udp_send_bundles", S+"cla/http.rs: http_send_bundles", S+"cla/external.rs: ExternalConvergenceLayer::new", S+"cla/dummy.rs: DummyConvergenceLayer::new"])
p("A convergence layer survives every transfer",
  "No transfer, whatever its destination, its data and the behaviour of the network, stops a convergence layer: it keeps serving later transfers until it is shut down.",
  "all layers, all destinations and data, all sequences of transfers, all interleavings and network failures", hist,
  [S+"cla/mtcp.rs: MtcpConvergenceLayer::new", S+"cla/udp.rs: UdpConvergenceLayer::new", S+"cla/http.rs: http_send_bundles", S+"core/peer.rs: DtnPeer::first_cla"])
p("Received bundles are handed on once and in order",
  "Every bundle that arrives by UDP or on an MTCP connection is handed to bundle processing exactly once, in the order of arrival; data that is no bundle is only counted as broken and does not stop the reception of the bundles that follow.",
  "all sequences of datagrams and all byte streams, cut into pieces in all ways, with receive errors in between", inp,
  [S+"cla/udp.rs: udp_listener", S+"cla/mtcp.rs: MtcpConvergenceLayer::handle_connection"])
p("The daemon never waits for itself",
  "Requests to the web interface, websocket messages, received and sent bundles, routing decisions, the periodic clean-up, neighbour discovery and external modules may run at the same time in any number. None of them blocks another for ever: every one returns, however they are interleaved.",
  "all multisets of concurrent calls, all interleavings of their steps, all tables of peers and all control flows within the calls", conc,
  [S+"dtnd/httpd.rs: index", S+"core/mod.rs: process_peers", S+"core/peer.rs: DtnPeer::still_valid, DtnPeer::first_cla", S+"core/processing.rs: local_delivery", S+"dtnd/ws.rs: WsAASession::handle_message, WsAASession::fetch_new_bundles", S+"dtnd/daemon.rs: start_dtnd", S+"lib.rs: CONFIG, DTNCORE, PEERS, STORE, CLAS"])
p("Waiting bundles of an endpoint are a queue, under any concurrency",
  "As long as an endpoint stays registered, the bundles waiting for its client plus those put aside for it since are, in order, the bundles fetched since plus those waiting now: none is lost, doubled or overtaken.",
  "every reachable state of the node, every later execution with any interleaving of receptions, submissions, forwarding tasks, deletions, subscriptions and fetches in which the endpoint is not unregistered", conc,
  [S+"core/application_agent.rs: SimpleApplicationAgent::push", S+"core/application_agent.rs: SimpleApplicationAgent::pop", S+"core/processing.rs: local_delivery", S+"dtnd/httpd.rs: endpoint"])
p("A bundle for a registered endpoint is delivered exactly once",
  "A bundle the node takes on (received for the first time, or submitted by a local application) whose destination is registered is given to that endpoint exactly once and to no other: it is then the last of those waiting there, or was passed on at once to the client that had subscribed. No other endpoint's waiting bundles change.",
  "every reachable state of the node, every such bundle, every order of the tasks it starts, every answer of the router and every outcome of transfers", hist,
  [S+"core/processing.rs: receive", S+"core/processing.rs: transmit", S+"core/processing.rs: dispatch", S+"core/processing.rs: local_delivery", S+"core/application_agent.rs: SimpleApplicationAgent::push"])
p("dtnrecv hands out exactly one waiting bundle per run",
  "dtnrecv -e E for a registered endpoint writes exactly the payload of the bundle that waits longest (or, on request, the whole bundle) and takes this bundle and no other; if nothing waits or the endpoint is not registered it writes nothing and no waiting bundle is lost; dtnrecv -b ID writes the stored bundle with that id and takes nothing.",
  "every state of the daemon, every endpoint name, every combination of output options, every waiting bundle", inp,
  [S+"bin/dtnrecv.rs: main", S+"bin/dtnrecv.rs: write_bytes", S+"dtnd/httpd.rs: endpoint", S+"dtnd/httpd.rs: download"])
p("dtnrecv reports registrations, unregistrations and deletions truthfully",
  "If dtnrecv says that it registered or unregistered an endpoint or deleted a bundle and ends with code 0, then the endpoint with that name is, or is not, registered, respectively the bundle with that id was stored and no longer is.",
  "every state of the daemon and every name or id given", inp,
  [S+"bin/dtnrecv.rs: main", S+"dtnd/httpd.rs: register", S+"dtnd/httpd.rs: unregister", S+"dtnd/httpd.rs: delete"])
p("dtnsend submits exactly the described bundle",
  "With readable sender and receiver, dtnsend submits exactly one bundle with this source, destination, creation timestamp, lifetime and payload, prints its id and ends with code 0, which means that the daemon took the bundle; a dry run submits nothing; if it ends with another code nothing was submitted.",
  "every combination of arguments, every input, every answer of the daemon to the questions for node id and timestamp, every state of the daemon", inp,
  [S+"bin/dtnsend.rs: main", S+"dtnd/httpd.rs: insert_post"])
p("A message sent with dtnsend is what dtnrecv writes",
  "Data sent with dtnsend from a local sender to a registered endpoint without subscriber is exactly what dtnrecv writes for that endpoint once the daemon has processed the bundle and the bundles waiting before it were fetched.",
  "every reachable state of the node, all data, all arguments, every order of the daemon's tasks and every answer of the router while the bundle is processed", hist,
  [S+"bin/dtnsend.rs: main", S+"bin/dtnrecv.rs: main", S+"core/processing.rs: send_bundle", S+"core/processing.rs: local_delivery", S+"dtnd/httpd.rs: endpoint"])
p("dtntrigger runs its command exactly once per bundle",
  "dtntrigger runs its command once per bundle with data, in the order of arrival, with the words of the command, the source of the bundle and a file with exactly its payload; never for anything else, never twice, and not before it is registered, connected, in bundle mode and subscribed.",
  "every command text, every sequence of messages, every handshake", hist,
  [S+"bin/dtntrigger.rs: main", S+"bin/dtntrigger.rs: execute_cmd", S+"bin/dtntrigger.rs: write_temp_file"])
p("dtnquery shows the state of the daemon exactly",
  "dtnquery lists exactly the bundles that are stored and not marked as deleted, with -a only those whose source or destination contains the address, with -d the digest of these; store lists every known bundle with its states of processing, peers everything the node knows of each neighbour, info its counters, eids the registered endpoints, and nodeid prints the node id. The text printed is JSON and reads back as exactly these data.",
  "every store content, every set of endpoints, every table of neighbours, every value of the counters, every address given", inp,
  [S+"bin/dtnquery.rs: main", S+"dtnd/httpd.rs: status_bundles", S+"dtnd/httpd.rs: status_bundles_filtered", S+"dtnd/httpd.rs: status_bundles_filtered_digest", S+"dtnd/httpd.rs: status_eids", S+"core/store/mod.rs: BundleStore::filter_addr", S+"dtnd/httpd.rs: status_store", S+"dtnd/httpd.rs: status_peers", S+"dtnd/httpd.rs: status_info", S+"core/bundlepack.rs: BundlePack::fmt"])
p("A node makes up no bundles",
  "Every bundle that is stored, announced to the router, handed to a convergence layer or given to an application was received or submitted before (or is a status report the node made), with the same primary block and the same fixed blocks, and an application only gets bundles addressed to its endpoint.",
  "every reachable state of a node: all calls, all interleavings of the tasks, all answers of routers and convergence layers, all times", hist,
  [S+"core/processing.rs: receive", S+"core/processing.rs: dispatch", S+"core/processing.rs: local_delivery", S+"core/processing.rs: forward", S+"core/store/mod.rs: BundleStore::push"])
p("Bundles keep identity and contents across a network",
  "Whatever an application gets anywhere in a network of nodes was submitted by an application on some node (or made by a node as status report, or pushed in by a peer outside the network): same primary block, no fixed block that the original does not have, none lost unless an unknown block asks for removal, and addressed to that application's endpoint unless different bundles were submitted under one id. The same holds for all copies on the way.",
  "every number of nodes, every run of the network: all interleavings, losses, duplications and reorderings of transfers, restarts of nodes", hist,
  [S+"core/processing.rs: receive", S+"core/processing.rs: forward", S+"core/processing.rs: local_delivery", S+"core/processing.rs: send_bundle"])
p("The hop limit bounds how far a bundle travels",
  "A bundle submitted with a hop limit is passed on by at most that many nodes, and the hop count of every copy says how many nodes passed it on.",
  "every number of nodes and every run of the network", hist,
  [S+"core/processing.rs: forward", S+"core/processing.rs: handle_hop_count_block"])
p("Bundles travel along chains of nodes",
  "A bundle that a node takes on for another node, while it is alive and its hop limit allows, is handed to the convergence layer for every neighbour the router names, with the age increased by no more than the time spent at the node. Therefore a bundle travels along every chain of nodes, of any length within its hop limit, whose routers name the next node, and the node at the end gives it to the application exactly once, with the primary block, the payload and all other fixed blocks unchanged and the hop count increased by the length of the chain. This holds although every node does other work before and at the same time, provided that nobody removes or replaces the stored bundle meanwhile.",
  "All bundles, all chains of nodes of any length, all configurations and histories of each node, all schedules of its tasks.", hist,
  [S+"core/processing.rs: receive", S+"core/processing.rs: forward", S+"core/bundlepack.rs: BundlePack", S+"routing/mod.rs: notify"])
p("What the router decides is carried out, whatever else the node does",
  "While a node processes any number of calls at the same time, in any order: whenever the router names a neighbour for a stored bundle, a copy of this bundle with its hop count raised and the previous node replaced is handed to the convergence layer for this neighbour before the node comes to rest. A received bundle for another node that is not a duplicate, a submitted bundle for another node whose source is anonymous or registered, and, when the janitor runs, every bundle that waits to be forwarded, are taken to the router in this way. This holds if the bundle stays in the store, is alive, has room in its hop limit and has extension blocks as the standard demands.",
  "all reachable states of a node with any tasks running, all further executions that come to rest, with any interleaving, calls, registrations, clock changes and router answers in between, in which the bundle is neither removed nor replaced and does not expire", conc,
  [S+"core/processing.rs: forward, receive, dispatch, transmit", S+"core/mod.rs: process_bundles", S+"core/bundlepack.rs: BundlePack"])
p("Every call comes to an end",
  "Reception, submission, removal, fetching and janitor runs all come to an end, however many other calls are made at the same time and whatever order their steps are made in: as long as a call has not ended, one of the tasks it has led to can go on, even if all other tasks stood still, and after finitely many steps of its own it is done. Without further calls the whole node comes to rest.",
  "all reachable states of a node with any tasks running, all calls, all infinite executions from there in which the tasks of the call are not neglected for ever, with any interleaving, further calls, transfer outcomes, router answers and changes from outside", conc,
  [S+"core/processing.rs: receive, send_bundle, forward, dispatch", S+"core/mod.rs: process_bundles", S+"httpd.rs: delete, endpoint"])
p("The client library of external modules carries packets faithfully",
  "A module or router that uses the client library gets its packets to the daemon in the order of its commands, none skipped, doubled or reordered, up to the first close, a module's registration first; it is handed exactly the daemon's packets in order, a module with its own id filled in; serve goes on until a close or the end of the connection and returns the first error the daemon reported, or success; it can be called again after a lost connection; a bad address is answered with an error.",
  "all addresses, all interleavings of commands, calls of serve, writes, messages from the daemon and connection losses, any number of them", conc,
  [S+"cla/ecla/ws_client.rs: new, Client::serve, command_channel", S+"routing/erouting/ws_client.rs: new, Client::serve, command_channel"])
p("With epidemic routing or flooding, stored bundles spread to all neighbours",
  "A bundle that waits in a node with epidemic routing, stays alive and may travel one more hop is offered to every neighbour: once the node has come to rest after a janitor run, every neighbour that could be reached when the router was asked has been handed a copy or has sent the bundle itself, and one whose last transfer failed is served again; the only exception is that the destination itself is a neighbour and is served instead. With flooding every reachable neighbour is served each time.",
  "all reachable states of a node with any tasks running, all executions with any interleaving, calls, transfer outcomes and changes of the neighbourhood, all histories of the router", conc,
  [S+"routing/epidemic.rs: handle_routing_cmd, incoming_bundle, sending_failed", S+"routing/flooding.rs: handle_routing_cmd", S+"core/processing.rs: forward, send_bundle_task", S+"core/mod.rs: process_bundles"])
p("The tcp convergence layer answers every transfer, and sends each once over a shared connection",
  "A caller of the tcp layer gets exactly one answer per transfer unless the peer keeps it waiting: when the node has nothing left to do, every transfer has been answered or waits on an open connection to its destination on which it is the peer's turn, and when a connection ends everything put on it is answered. The answer is success only if the peer has confirmed this transfer on that connection. Each transfer is put on at most one connection, once, and what is written there is the transfers in that order with all their bytes. The node opens at most one connection per address, uses connections that came in for both directions, and nothing that peers send or callers ask ends the layer.",
  "all sequences of requests, connections, messages, losses and timeouts, all interleavings of the command loop, transfer tasks, listener and sessions, any number of peers", conc,
  [S+"cla/tcp/mod.rs: tcp_send_bundles, TcpConnection::connect, Listener::run, TcpConvergenceLayer::new, TCP_CONNECTIONS", S+"cla/tcp/mod.rs: TcpSession::run"])
p("Bundles sent between two nodes over tcp arrive once, in order and unaltered, and callers hear of it",
  "On a tcp connection between two nodes the receiving node processes only bundles the sending node was asked to transfer on it, unaltered, in this order, none more often than asked for. A transfer answered as successful has been processed there (or, if both are set to refuse what they have, was there already). No transfer put on the connection is answered as failed. When everything written has arrived and the nodes have nothing left to do, every transfer on the connection has been answered as successful, and the receiver has got exactly these bundles.",
  "all histories of both nodes, all bundles, any number of transfers at once in both directions, any moment of loss or delay, both settings of refuse_existing_bundles on each node", conc,
  [S+"cla/tcp/mod.rs: TcpSession::run, TcpSession::receive, TcpSession::send_bundle, tcp_send_bundles", S+"cla/tcp/proto.rs: TcpClPacket"])
p("Two nodes that exchange bundles over tcp never end the connection by mistake, and every exchange settles",
  "While no end of a tcp connection between two nodes is told to stop, loses the connection or runs into its timer, no message and no bundle to send makes either end its session. Transfers are answered in order, as successful, at most one at each end waiting. The messages under way are used up after finitely many arrivals, in whatever order the directions are served, and then every transfer has been answered as successful.",
  "all bundles, any number in both directions at any time, all announced segment sizes, both settings of refuse_existing_bundles at each end, all contents of the stores, all interleavings of arrivals", conc,
  [S+"cla/tcp/mod.rs: TcpSession::run, TcpSession::receive, TcpSession::send, TcpSession::send_bundle, TcpSession::process_bundle"])
p("Bundles are carried from contact to contact to their destination",
  "With epidemic routing, a bundle that a node keeps is handed over at the next contact: the node may hold it for any time and do anything else meanwhile; when the janitor runs while a neighbour can be reached, a copy is handed over for that neighbour, unless the bundle came from it or the destination itself is met and gets a copy. This holds again for the copy at the next node, and so on for any sequence of contacts within the bundle's lifetime and hop limit. Every copy that gets to the destination is the bundle that was sent (same primary block, payload and other fixed blocks, hops counted), and the node there gives it to the application exactly once.",
  "every bundle with room for the hops, every sequence of contacts of any length, at every node every history before it has the bundle, every time it is held and every concurrent activity, every set of neighbours whenever the router is asked", hist,
  [S+"core/processing.rs: forward", S+"core/processing.rs: receive", S+"routing/epidemic.rs: handle_sender_for_bundle", S+"dtnd/janitor.rs: janitor", S+"core.rs: process"])
p("An external routing program sends each bundle once to each neighbour that lacks it",
  "The routing program shipped with the project answers every request of its node with a reply for the same bundle, as long as it runs. With the epidemic strategy a reply names only neighbours the node has told of, at the addresses and over the layers it told, no neighbour twice, no neighbour that was named for the bundle before or from which the bundle came unless the transfer failed or a request timed out; and it names all neighbours with a usable layer that have not got the bundle, except that when the destination is such a neighbour it alone is named and deletion is asked for. Told and asked the same, it makes the node use the same senders as built-in epidemic routing. With the flooding strategy every layer of every neighbour is named, each neighbour once.",
  "all sequences of packets from the node, all neighbours, layers and bundles, both strategies", hist,
  ["examples/dtnerouting.rs: sender_for_bundle", "examples/dtnerouting.rs: flooding_strategy", "examples/dtnerouting.rs: serve", S+"routing/erouting/processing.rs: unpack_sender_for_bundle", S+"routing/epidemic.rs: handle_routing_cmd"])
p("External routing programs know the node's neighbours",
  "From the moment it connects, an external routing program is told of every neighbour that the node has and of every neighbour that it loses: at any time, what was told about a neighbour agrees with the node's own table.",
  "all tables and all sequences of beacons, periodic checks, failed transfers, tcp sessions and http calls", hist,
  [S+"routing/erouting/processing.rs: handle_connection", S+"core/mod.rs: process_peers", S+"core/processing.rs: forward", S+"ipnd/neighbour_discovery.rs: receiver", S+"cla/tcp/mod.rs: connect", S+"dtnd/httpd.rs: http_peers_add"])
p("The echo service answers each bundle once, to its source",
  "For each bundle with a payload that is handed to the echo service, the node is given one answer: addressed to the bundle's source, from its destination, with the same payload and a lifetime of a day. Answers come in the order of the bundles, none is left out and nothing else is sent; with everything read and handled all bundles are answered. Started while its endpoint is registered the service comes to serve it, goes on as long as it is connected, and leaves no bundle for the endpoint unanswered.",
  "all node histories, all interleavings of the messages of node and program, all bundles", conc,
  ["examples/dtnecho2.rs: main", S+"dtnd/ws.rs: handle_message", S+"dtnd/ws.rs: handle_bundle_delivery"])
p("The ping program counts the replies to its pings",
  "Asked for n pings, the ping program writes n pings, one after the other, each when the last one has been answered or its timeout has passed, then ends; its exit code is 0 exactly if all were answered. It reports a reply for the ping that it answers, counts nothing else as a reply, and gives up a ping that is not answered within the timeout.",
  "all sequences of messages, timeouts and errors, all arrival times, all arguments", hist,
  ["examples/dtnping.rs: main", "examples/dtnping.rs: send_ping", S+"dtnd/ws.rs: handle_socket"])
p("The program that connects several nodes brings each bundle to the node it is addressed to",
  "Every bundle that a node receives through the program was sent by one of the connected nodes to an address that leads to the receiver; bundles of each sender arrive in the order in which they were sent, none twice and, once nothing is on its way, none missing. An address leads to a node if it is the node's number, alone or before a colon. Every node hears of each announcement of every other node, under the number that leads to that node, and of nothing else. A node that does not read delays only the bundles for itself.",
  "all numbers of nodes, all histories of the nodes before and during, all interleavings of connecting, registering, writing, reading and routing", conc,
  ["examples/dtnecla_connect_n.rs: main", S+"cla/ecla/ws_client.rs: serve", S+"cla/ecla/processing.rs: handle_packet", S+"cla/ecla/processing.rs: scheduled_submission"])
p("The programs that carry bundles over TCP write each bundle once, in order and whole, and the other side reads exactly what was written",
  "dtnecla_mtcp and dtnecla_json_mtcp deal with the bundles of their node one after the other. The connections to an address, read one after the other, carry the bundles for that address in the order in which the node sent them, each at most once and, if connecting and writing succeed, all of them. However TCP cuts the bytes, the other program (or, for MTCP, a node with the built-in layer) reads exactly these bundles, and gives them to its node in order, none twice, none changed and none missing. Nothing but bundles comes from outside, and nobody outside can end the program.",
  "all packets of the node, all failures of connecting and of writing at any byte, all ways of cutting the bytes, all interleavings of sending, receiving and the client", conc,
  ["examples/dtnecla_mtcp.rs: send_bundle", "examples/dtnecla_mtcp.rs: handle_connection", "examples/dtnecla_json_mtcp.rs: send_bundles", "examples/dtnecla_json_mtcp.rs: handle_connection", S+"cla/mtcp.rs: MPDUCodec"])
p("Bundles for an application of the node reach it, whatever else the node does at the same time",
  "A bundle that a node receives as new, or that one of its applications submits, for an endpoint that is registered at the node, is given to that endpoint before the node comes to rest, provided the endpoint stays registered and nobody removes or replaces the stored bundle first. It has then been passed to a subscribed client, or been fetched by a client, or is waiting for one. If no bundle with the same id was accepted or submitted another time, it is given to an endpoint exactly once. Other receptions, submissions, removals, fetches, janitor runs and changes of the registrations of other endpoints may be going on at the same time.",
  "all bundles, all reachable states of the node with any tasks running, all interleavings with further calls, all answers of the router and outcomes of transfers", conc,
  [S+"core/processing.rs: receive", S+"core/processing.rs: transmit", S+"core/processing.rs: dispatch", S+"core/processing.rs: local_delivery", S+"core/application_agent.rs: SimpleApplicationAgent"])
p("What the persistent store holds survives restarts, and what was removed never comes back",
  "A node with the persistent store may be stopped at any time, also in the middle of a store call, and started again. A bundle in its database is still there afterwards unless the node removed it. A bundle that was removed never enters the database again. However often a bundle is received, before and after restarts, it is taken as new at most once. After a restart the node neither takes in nor sends nor delivers a bundle that it had removed before.",
  "all configurations, all interleavings of receptions, submissions, removals, fetches and janitor runs, all answers of the router, all stop points between and inside store calls, any number of restarts", hist,
  [S+"core/store/sled.rs: SledBundleStore", S+"core/processing.rs: receive, dispatch, forward, local_delivery", S+"lib.rs: store_add_bundle_if_unknown", S+"dtnd/daemon.rs: start_dtnd"])
p("Bundles in the persistent store are taken up again after a restart",
  "After a restart of a node with the persistent store, each bundle in the database that waits to be forwarded is taken to the router by the next run of the janitor, and copies are handed over for all neighbours the router names. Bundles that wait for an application or were stopped half-way are taken up as well.",
  "all histories of a node with the persistent store, with stops at any points, and all interleavings after the restart", hist,
  [S+"core/mod.rs: process_bundles", S+"core/processing.rs: forward", S+"core/store/sled.rs: forwarding, get_bundle", S+"core/application_agent.rs: SimpleApplicationAgent"])
p("The node's guarantees hold with the persistent store, too",
  "With the persistent store, and however often and wherever the process is stopped and started again: every copy handed to a convergence layer has a hop count within its limit, was checked to be within its lifetime, carries an age that counts the time the node was not running, names this node as its previous node, is otherwise the bundle in the database, and goes to a neighbour that the router named for it; every status report is permitted and addressed to the report-to endpoint; every removal from the database has a reason; and a bundle with an unknown block that asks for its deletion is never taken up.",
  "every history of calls, schedules, router answers, transfer outcomes, changes of clock, peers and endpoints, and stops of the process at any point, also inside a call of the store", hist,
  [S+"core/processing.rs: forward", S+"core/store/sled.rs: SledBundleStore", S+"core/bundlepack.rs: BundlePack", S+"core/processing.rs: send_status_report"])
p("Foreign sources are refused across restarts",
  "With the persistent store, a submitted bundle whose source is neither dtn:none nor registered is never announced to the router, delivered, fetched or handed to a convergence layer, whatever else runs and however often the process is stopped and started again; and it is not in the store when the submission is over.",
  "every history of the node with restarts at any point, every bundle", hist,
  [S+"core/processing.rs: send_bundle, transmit, delete", S+"core/store/sled.rs: push, remove"])
p("A node with the persistent store makes up no bundles",
  "With the persistent store, every bundle that is in the database, announced to the router, waiting at or given to an application, or handed to a convergence layer was submitted to this node, received by it (up to removed unknown blocks) or is a status report it made, in this run of the process or an earlier one; applications get only bundles addressed to their endpoint (if no two bundles share an id), and copies differ from the stored bundle only in the hop count, age and previous node blocks.",
  "every history of the node with restarts at any point and between the writes of any store operation, every bundle", hist,
  [S+"core/processing.rs: send_bundle, receive, dispatch, local_delivery, forward", S+"core/store/sled.rs: push, remove, get_bundle"])
p("Bundles keep identity, contents and hop limit in networks whose nodes restart",
  "In a network in which some nodes keep their bundles in memory and others in the database, and all may be stopped and started again at any time, every bundle that an application gets or a node holds or sends was submitted somewhere (or made as a status report), with the same primary block and the same blocks apart from hop count, age and previous node; and no copy is passed on more often than its hop limit allows. A bundle held by a node with a database stays there until the node removes it.",
  "every network, every interleaving of its nodes with losses, duplications and delays, restarts of any node at any point, also between the writes of a store operation", hist,
  [S+"core/processing.rs: receive, forward, local_delivery", S+"core/store/sled.rs: push, remove, new", S+"core/store/mem.rs: push"])
p("Bundles for an application reach it, with the persistent store",
  "With the database as store, a bundle that the node receives or an application submits for a registered endpoint is given to that endpoint, if the endpoint stays registered and nobody removes the bundle first; it is passed on at once, fetched by a client, or waits, and clients fetch waiting bundles once each and in order. This holds also for bundles that are waiting when the process is stopped and started again.",
  "every configuration, every history with restarts at any point, every interleaving with other calls, every bundle whose id is not known without its bundle", hist,
  [S+"core/processing.rs: local_delivery, dispatch, receive, transmit", S+"core/store/sled.rs: push, update_metadata, get_bundle", S+"core/application_agent.rs: push, pop"])
p("Numbers of events and statistics are right, with the persistent store",
  "With the database as store, a received bundle is announced to the router and given to an application at most once, and at most one status report of its reception is made, however often it is received and however often the process is stopped; there is at most one other report per event that calls for it, and a bundle goes to a recipient only as often as the router named it. From a start or restart of the node until no task is running, the statistics count each reception as a new bundle or as a duplicate, each transfer by its outcome and each delivery, and the router is told of the outcomes.",
  "every configuration, every history with restarts at any point, every interleaving, every answer of the router and outcome of transfers, every bundle id and recipient", hist,
  [S+"core/processing.rs: receive, dispatch, forward, local_delivery, send_status_report", S+"core/store/sled.rs: push, add_if_unknown, remove", S+"lib.rs: STATS", S+"core/mod.rs: DtnStatistics"])
p("The janitor keeps running",
  "On a node with a janitor interval, the janitor runs again and again for as long as the process lives: no bundle, no answer of the router, no failing transfer and no other task on the node stops its timer or blocks one of its runs for ever.",
  "every configuration, every execution that goes on for ever, every interleaving with other tasks, every bundle and every answer of the router; of the scheduler only that the janitor's own tasks are not neglected for ever", hist,
  [S+"dtnd/cron.rs: spawn_timer", S+"dtnd/janitor.rs: janitor, spawn_janitor", S+"dtnd/daemon.rs: start_dtnd", S+"core/mod.rs: process_bundles", S+"core/processing.rs: forward"])
p("What has expired goes, what waits is tried again",
  "As time passes, every stored bundle whose lifetime has ended is removed, every bundle that waits to be forwarded is taken to the router again as long as it waits, and every discovered neighbour that is not heard of any more is dropped, without anybody calling anything: the janitor sees to it, whatever else happens on the node.",
  "every execution that goes on for ever, every interleaving with other tasks, every bundle id, deadline and neighbour; of the scheduler only that the janitor's own tasks are not neglected for ever", hist,
  [S+"dtnd/janitor.rs: janitor", S+"dtnd/cron.rs: spawn_timer", S+"core/mod.rs: process_bundles, process_peers", S+"core/processing.rs: forward", S+"core/bundlepack.rs: BundlePack"])
p("Every call comes to an end, with the persistent store",
  "With the database as store, everything a call sets off comes to an end, whatever other calls are made at the same time and however often the process was stopped before, as long as it is not stopped again: nothing waits for ever, nothing loops, and a node that gets no further calls comes to rest.",
  "every configuration, every history with restarts at any point, every call, every interleaving with other tasks, every answer of the router and outcome of transfers; of the scheduler only that the call's own tasks are not neglected for ever", hist,
  [S+"core/processing.rs: receive, dispatch, forward, handle_bundle_forwarding", S+"core/mod.rs: process_bundles", S+"core/store/sled.rs: push, remove, update_metadata"])
p("The janitor keeps running and does its work, with the persistent store",
  "With the database as store, the janitor runs again and again in every life of the process, whatever the database holds when it starts: expired bundles are removed, waiting bundles are taken to the router again and lost neighbours are dropped, also if the bundles were received by an earlier process.",
  "every configuration, every history with restarts at any point and crashes between the writes of the store, every execution that goes on for ever after it, every interleaving, bundle and answer of the router; of the scheduler only that the janitor's own tasks are not neglected for ever", hist,
  [S+"dtnd/cron.rs: spawn_timer", S+"dtnd/janitor.rs: janitor, spawn_janitor", S+"core/mod.rs: process_bundles, process_peers", S+"core/processing.rs: forward", S+"core/store/sled.rs: remove, get_bundle, get_metadata"])
p("No bundle kept for another node is forgotten",
  "A node keeps every bundle for another node that is in its store waiting for transmission: once the tasks for its reception or submission have ended, whatever has failed, it is marked as waiting, it goes on being so until it leaves the store or comes in again, and the janitor takes it to the router again and again.",
  "every configuration, every history of calls, every interleaving of their tasks, every outcome of transmissions, every answer of the router, every bundle for another node; for the last part every execution that goes on for ever", conc,
  [S+"core/processing.rs: receive, dispatch, forward, contraindicated, transmit, send_bundle", S+"core/mod.rs: process_bundles", S+"core/store/mem.rs: update, forwarding"])
p("TCPCL messages are those of RFC 9174",
  "On the wire, every TCPCL message the node writes has exactly the bytes RFC 9174 prescribes for it, with reserved bits zero, and every message laid out as the RFC prescribes is understood as that message, with reserved bits and unknown extension items that are not critical ignored, so that nodes of other implementations can be talked to.",
  "every message of every type with field values in range; every byte sequence the RFC allows for a message, whatever follows it", inp,
  [S+"cla/tcp/net.rs: TcpClPacket::{write,read}", S+"cla/tcp/proto.rs", S+"cla/tcp/mod.rs: receive_contact_header, send"])
p("External convergence layer packets are the documented JSON objects",
  "Packets between a node and an external convergence layer module are written as the JSON objects of the documentation (field type, the documented fields, endpoint ids as a list of scheme number and address, bytes in Base64). A text is understood as a packet exactly if it is JSON of an object that is this packet by the documentation, however it is laid out (any white space, order of the fields, escapes and further fields), or of a list of its type and fields; nothing else is understood. What one side writes, the other reads back, over TCP also however the stream is cut.",
  "all packets, all texts, JSON (RFC 8259) or not, all readers of endpoint ids, all cuts of the stream", inp,
  [S+"cla/ecla/mod.rs: Packet, Register, Beacon, ForwardData, Registered, Error, base64", S+"cla/ecla/tcp.rs: send_packet, handle_connection", S+"cla/ecla/ws.rs: handle_connection", S+"cla/ecla/ws_client.rs: serve"])
p("External router packets are the documented JSON objects",
  "Packets between a node and an external router are written as JSON objects with the documented type and fields, and any JSON text of such an object (any white space, order of fields, escapes, further fields), and nothing that is not JSON, is understood as exactly that packet by the other side, in particular by the client library of this project.",
  "every packet of the external routing interface and every text", inp,
  [S+"routing/erouting/mod.rs: Packet", S+"routing/erouting/processing.rs: handle_connection", S+"routing/erouting/processing.rs: send_packet", S+"routing/erouting/ws_client.rs: serve", S+"core/bundlepack.rs: BundlePack", S+"core/peer.rs: DtnPeer"])
p("Records of bundles survive the database",
  "What the database keeps about a bundle is read back exactly as it was written: every record has a CBOR text, different records have different texts, any CBOR text of a record (any order of fields and constraints, any form of numbers) is read as that record, and after every history of calls, also ones cut short by a crash, every query of the store finds the records as they were last written and never stops the daemon on bytes it cannot read.",
  "every record, every order in which its set of constraints is listed, every CBOR text of it, every history of store calls and crashes", inp,
  [S+"core/bundlepack.rs: BundlePack", S+"core/bundlepack.rs: to_cbor", S+"core/bundlepack.rs: From<&[u8]> for BundlePack", S+"core/store/sled.rs: push", S+"core/store/sled.rs: update_metadata", S+"core/store/sled.rs: remove", S+"core/store/sled.rs: filter", S+"core/store/sled.rs: get_metadata"])
p("Nodes behind external convergence layers learn of each other",
  "The beacon a node gives to its external modules, carried to another node by any module that fills in the address, makes that node list the first one with its id, this address and exactly its convergence layers, ports and services, report the encounter to the router and change nothing else. A node always has a beacon to give, and never becomes its own neighbour.",
  "every set of convergence layers and services of the sender, every state of the receiver, every address, every CBOR layout of the block", inp,
  [S+"cla/ecla/processing.rs: generate_beacon", S+"cla/ecla/processing.rs: handle_packet", S+"ipnd/services.rs: ServiceBlock", S+"lib.rs: peers_add"])
p("The store on directory and database behaves like the others",
  "With the store `sneakers`, after any calls, with or without success, exactly the bundle last pushed under an id and not removed since is returned; its metadata has the id, source, destination, times and flags of the bundle and the constraints last written; listings are exact; bundles waiting to be forwarded are among the pending ones; and a removed bundle stays known as deleted.",
  "every history of calls and outcomes, every content of directory and database, every database that keeps what it is given", hist,
  [S+"core/store/sneakers.rs: SneakersBundleStore", S+"core/store/sneakers.rs: eid_from_strings", S+"core/store/mod.rs: BundleStore"])
p("Spray and wait spends its copies and delivers directly when it waits",
  "Asked where to send a bundle that has copies left, the spray and wait router gives one copy each to the neighbours that do not have the bundle yet, as many as there are copies to give, keeping one. When only that one is left it sends the bundle to its destination as soon as the destination is a neighbour, and asks for the bundle to be deleted afterwards. A neighbour that is counted as served was sent a copy.",
  "every number of copies, every history of commands to the router, every list of neighbours and convergence layers and every bundle", hist,
  [S+"routing/sprayandwait.rs: handle_sender_for_bundle", S+"routing/sprayandwait.rs: handle_new_bundle"])
p("No bundle kept for another node is forgotten by a node with a persistent store",
  "With the persistent store, when a node comes to rest, every bundle in the database that is for another node waits to be forwarded, whatever calls were made and whatever failed; and from then on it goes on waiting as long as it is in the database and does not come in again, also if the process is stopped and started again. So the periodic task takes it to the router again and again, also a bundle that an earlier process has received.",
  "all histories of a node with restarts at any points, then all calls, schedules, failures and stops, and all infinite executions of the node with its periodic task", hist,
  [S+"core/processing.rs: receive", S+"core/processing.rs: forward", S+"core/store/sled.rs: push", S+"core/store/sled.rs: remove", S+"core/mod.rs: process_bundles"])
p("A node with epidemic routing gives a bundle to each neighbour once",
  "With epidemic routing, a node hands a bundle to a convergence layer for a neighbour at most once, and once more for every failed transfer it has told its router of; so no neighbour gets a bundle successfully twice, however often the bundle is received, submitted or retried. A bundle that comes from a neighbour is never handed back to it.",
  "all calls, schedules, failures, convergence layer outcomes and peers of a node that talks to an epidemic router, and all bundles and neighbours", conc,
  [S+"routing/epidemic.rs: handle_routing_cmd", S+"routing/epidemic.rs: sending_failed", S+"core/processing.rs: forward", S+"core/processing.rs: receive"])
p("A node with spray and wait routing keeps to its budget of copies",
  "With spray and wait routing, a node hands a bundle to nodes other than its destination at most as often as its budget of copies allows, apart from failed transfers, and a bundle that was not created on the node is handed to its destination only.",
  "all calls, schedules, failures, convergence layer outcomes and peers of a node that talks to a spray and wait router, and all bundles", conc,
  [S+"routing/sprayandwait.rs: handle_sender_for_bundle", S+"routing/sprayandwait.rs: handle_notification", S+"core/processing.rs: forward", S+"core/processing.rs: receive"])
p("A node hands bundles only to whom its router may choose, and lets go of them only when they have arrived there",
  "With the sink router a node sends nothing. With flooding, epidemic routing and spray and wait it hands bundles only to neighbours that could be used when the router was asked, with static routing only to the neighbour of the first route that applied. A bundle is taken out of the store on the word of the router never with sink and flooding; with epidemic routing and spray and wait only after a copy was transferred to the node it is addressed to; with static routing only after a copy was transferred along a route that applied, and never if it is for a group.",
  "all calls, schedules, failures, peers, routes files and reloads, with the store in memory or the persistent store, also over restarts", conc,
  [S+"routing/sink.rs: handle_routing_cmd", S+"routing/flooding.rs: handle_routing_cmd", S+"routing/epidemic.rs: handle_routing_cmd", S+"routing/sprayandwait.rs: handle_sender_for_bundle", S+"routing/static_routing.rs: handle_routing_cmd", S+"core/processing.rs: forward"])
p("Routing limits hold over restarts",
  "A node keeps to the limits of its router also if it is stopped and started again at any time with the persistent store: with epidemic routing no neighbour gets a bundle twice, no bundle goes back to where it came from, and with spray and wait the budget of copies holds for all starts together.",
  "all calls, schedules, crash points, restarts, failures and peers of a node with either store that talks to an epidemic or a spray and wait router, and all bundles and neighbours", hist,
  [S+"routing/epidemic.rs: EpidemicRoutingAgent", S+"routing/sprayandwait.rs: SprayAndWaitRoutingAgent", S+"dtnd/daemon.rs: start_dtnd", S+"core/processing.rs: forward"])
p("A network of spray and wait nodes does not multiply a bundle",
  "In a network whose nodes all use spray and wait routing, and in which what comes in at a node was handed over for it at another (copies may be lost, duplicated, delayed and reordered), the number of nodes besides the destination that take in a bundle is at most the number of copies configured at its source less one, for each time the bundle was submitted or taken in at the source, plus one for each failed transfer of the bundle that a router in the network was told of. Restarts of nodes do not change this.",
  "all networks of any number of nodes, all executions of the nodes with either store and any restarts, all bundles and neighbours", hist,
  [S+"routing/sprayandwait.rs: handle_sender_for_bundle", S+"routing/sprayandwait.rs: handle_notification", S+"core/processing.rs: forward", S+"core/processing.rs: receive"])
p("The web pages show what the node has, and nothing on them is taken for markup",
  "The page of bundles lists every bundle that is not marked as deleted, once, with its size and a link; following the link downloads that bundle. The page of neighbours lists every neighbour once, with name, kind, address and the time since the last contact. The first page tells the settings and how many neighbours and bundles there are. Whatever ids, names and addresses other nodes choose, they add no tags or links to the pages and are shown as they are.",
  "all contents of the store and of the table of neighbours, all ids, names, addresses and settings, all clock values", inp,
  [S+"dtnd/httpd.rs: index", S+"dtnd/httpd.rs: web_peers", S+"dtnd/httpd.rs: web_bundles", S+"dtnd/httpd.rs: download"])
with open("/verif/properties.jsonl","w") as f:
    for x in P: f.write(json.dumps(x)+"\n")
print(len(P))
