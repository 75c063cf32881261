# Formal model of dtn7-rs in Lean 4

Source under study: `/repo` (dtn7-rs 0.21.0), paths below are relative to
`/repo/core/dtn7/src`. Nothing of it is built or run here; the model was written by
reading the source, and each definition cites the file and lines it models.

## Layout

| directory | content |
|---|---|
| `lean/Verif/Model/` | executable model, one file per source module, every definition cites its source lines |
| `lean/Verif/Spec/` | small specifications the theorems refer to, independent of the model's helpers |
| `lean/Verif/Lemmas/` | helper lemmas (no property statements) |
| `lean/Verif/Props/` | one file per group of properties: the theorems listed in MANIFEST.json, each with a concrete non-trivial instance beside it |

Theorem names start with the property id (`C01_...`). A theorem named `..._partial`
proves part of its property; `..._violated` / `..._fails` theorems show by a concrete execution of
the model that the property as stated in English is false of the code.

## Trusted base

* Lean 4.33.0's kernel. Allowed axioms: `propext`, `Classical.choice`, `Quot.sound`.
  No axioms are added, no `sorry`, no `native_decide`, no `bv_decide`.
* The faithfulness of the model to the source (read by hand), under the conventions below.
* Behaviour of external crates, as written in the model (see "External code").

## Modelling conventions

* `HashMap`/`BTreeMap`/`sled::Tree` are association lists with at most one entry per key
  (`Verif.Model.AList`). Iteration order is the list order; theorems that depend on
  iteration order hold for every order because the list is arbitrary.
* A function that mutates global state (`STORE`, `PEERS`, `STATS`, `CONFIG`, `DTNCORE`, `CLAS`)
  becomes a function from the old to the new state.
* One critical section (one lock acquisition) is one atomic step. Concurrency is an
  arbitrary interleaving of such steps.
* `Result` stays data; a panic (`unwrap` on `None`, index out of range, arithmetic
  overflow in a debug build) is an explicit `panic` outcome. Integer arithmetic that can wrap
  in a release build is modelled with explicit `% 2^n`, where the property is about it;
  elsewhere numbers are `Nat`.
* Clocks, router answers, transfer outcomes and peers' messages are parameters, so theorems
  quantify over all of them.
* Logging, metrics of elapsed time and string formatting for humans are not modelled.

## External code (assumed, not verified)

* `bp7` 0.10.6: bundle ids are a function of the primary block; `extension_block_by_type(_mut)`
  returns the first block of that type holding data of the matching kind; hop count is a pair
  of `u8` and `hop_count_increase` adds one, `hop_count_exceeded` is `count > limit`;
  `add_canonical_block` appends a block under a fresh number; CBOR encoding of bundles
  is opaque (bytes produced by `to_cbor` decode to the same bundle).
* `tokio` channels are FIFO, `oneshot` delivers at most once, `parking_lot::Mutex` gives mutual exclusion.
* `sled`: an insert followed by `flush` is durable, unflushed writes may or may not survive.
* `serde_cbor`, `serde_json`, `axum`, `hyper`, `glob_match`, `sha1`: only the behaviour written in the model.

## Plan per property

* **C01 In-memory store behaves like a map from bundle id to the last pushed bundle.** Model: Model/MemStore: the two maps and every method. Proof: Refinement to a function `id → Option Bundle` by induction over the call list.
* **C02 Every stored bundle has metadata, and the store never forgets an id.** Model: Model/MemStore. Proof: Invariant by induction over the call list; monotonicity of the metadata domain.
* **C03 Removal leaves a tombstone and no data.** Model: Model/MemStore.remove. Proof: Case analysis on the two lookups; frame lemma for other ids.
* **C04 A deleted bundle is not accepted again.** Model: MemStore and SledStore push. Proof: Sled: invariant over histories. Mem: expected to fail, concrete history as negation.
* **C05 Sled store behaves like a map with tombstones.** Model: Model/SledStore with `panic` outcomes. Proof: Refinement by induction over calls.
* **C06 Sled store is crash consistent.** Model: SledStore operations as lists of durable writes; crash = prefix of the writes. Proof: Invariant for every prefix; re-push after a crash is expected to fail (negation).
* **C07 Retention constraints survive the sneakers bit-set encoding.** Model: The two conversion functions with `BitVec 8` flags. Proof: Extensional equality by cases on the six constraints.
* **C08 Syncing a pack with no constraints deletes, otherwise persists it.** Model: Pack.sync on the store. Proof: Case analysis.
* **C09 Each bundle is processed at most once while it is stored.** Model: Atomic steps add_if_unknown / remove in any order. Proof: Induction over the interleaving: between removals at most one winner.
* **C10 Reception statistics count every bundle exactly once.** Model: receive's first step with statistics. Proof: Induction over calls.
* **C11 The expiry sweep removes exactly the expired bundles.** Model: store_delete_expired as the loop over metadata, u64 wrap-around explicit. Proof: Loop invariant; overflow case as negation.
* **C12 The janitor forwards every pending bundle once, oldest first.** Model: process_bundles selection and sort. Proof: Permutation and sortedness of the produced list.
* **C13 Only local or anonymous sources may transmit.** Model: transmit. Proof: Case analysis over node states.
* **C14 Dispatch delivers locally and forwards correctly.** Model: dispatch, local_delivery. Proof: Case analysis.
* **C15 A bundle never leaves the node beyond its hop limit.** Model: handle_hop_count_block, forward; u8 wrap explicit. Proof: Case analysis of forward's pipeline; wrap as negation.
* **C16 A bundle past its lifetime is not sent.** Model: handle_primary_lifetime, forward. Proof: Case analysis.
* **C17 Bundle age grows by the time spent on this node.** Model: update_bundle_age, handle_bundle_age_block. Proof: Age equation proved; the unit of the drop check is microseconds in the code, negation expected.
* **C18 Every sent bundle names this node as previous node.** Model: handle_previous_node_block. Proof: Block-list lemmas.
* **C19 Unknown blocks that ask to be removed are removed, and nothing else is.** Model: receive's block loop with index arithmetic and Vec::remove panics. Proof: Expected to fail (index bug); partial theorem for bundles where all blocks are unknown or none asks for removal.
* **C20 Status reports are only produced when requested and permitted.** Model: send_status_report and its callers. Proof: Case analysis: a report in the output implies the guard.
* **C21 A status report removes its subject only on delivery.** Model: inspect_status_report. Proof: Expected to fail; partial: only the referenced bundle is touched and only for 4-entry reports.
* **C22 A failed transmission never loses the bundle.** Model: forward. Proof: Case analysis over outcomes.
* **C23 Transfer statistics match transfer outcomes.** Model: forward's transfer tasks as atomic steps in any completion order. Proof: Induction over permutations of outcomes.
* **C24 Deleted bundles stay deleted while tasks run.** Model: interleaving of store steps. Proof: Expected to fail (stale sync), negation; partial: packs not synced after removal.
* **C25 An application agent hands out bundles in order, once each, without loss.** Model: Model/Agent. Proof: History invariant by induction over calls.
* **C26 Endpoint registration is idempotent and unique.** Model: Model/Core registry. Proof: Invariant and refinement to a set of EIDs.
* **C27 A fetched singleton bundle leaves the store.** Model: Agent push/pop with store. Proof: Case analysis.
* **C28 The peer table has one entry per node and reports new peers correctly.** Model: Model/Peers. Proof: Refinement to a map; scheme collision of node names as negation.
* **C29 Static peers are never dropped, dynamic peers exactly on timeout.** Model: process_peers, still_valid. Proof: Case analysis over peers; list filter.
* **C30 A dynamic peer is dropped on the fourth failed transmission.** Model: report_fail sequence. Proof: Induction over events.
* **C31 The convergence layer chosen for a peer is usable.** Model: first_cla. Proof: List search lemmas.
* **C32 Epidemic routing offers a bundle to each peer at most once unless sending failed.** Model: Model/Routing/Epidemic. Proof: Invariant relating history set and trace, by induction over commands.
* **C33 Epidemic routing never returns a bundle to the node it came from.** Model: same. Proof: same invariant.
* **C34 Epidemic routing serves every usable new peer, and only the destination if it is a neighbour.** Model: same. Proof: Loop lemma; direct-delivery marking as negation.
* **C35 Spray and wait never exceeds its copy budget.** Model: Model/Routing/Spray. Proof: Potential-function invariant over commands.
* **C36 A failed spray transfer undoes exactly that transfer.** Model: same. Proof: Expected to fail, negation; partial.
* **C37 Static routing follows the first matching route.** Model: Model/Routing/Static with glob as parameter. Proof: List search lemma.
* **C38 Flooding selects every usable peer and sink none.** Model: Flooding, Sink. Proof: filterMap characterisation.
* **C39 External routing.** Model: `Model/Routing/External.lean`, requests, responses, timers and connections as small steps between locks. Proof: invariant over all runs linking every channel to its request and every stored response to its message; frame lemmas for an unrivalled request.
* **C40 MTCP framing round-trips.** Model: Model/Mtcp: header and codec on byte lists. Proof: Round-trip by header length class.
* **C41 MTCP decoding does not depend on how the stream is cut.** Model: decoder as a state machine over chunks. Proof: Prefix-stability of decode + induction over the stream.
* **C42 MTCP decoding rejects garbage without crashing.** Model: decoder total with explicit errors. Proof: Case analysis.
* **C43 TCPCL messages round-trip.** Model: Model/TcpNet: byte-level writer and reader. Proof: Round-trip per message type.
* **C44 TCPCL parsing never crashes and never over-reads.** Model: reader with explicit underflow. Proof: Negation for the extension-length underflow; partial elsewhere.
* **C45 TCPCL segmentation and reassembly deliver exactly the bundle bytes.** Model: Model/TcpSession chunks and receive. Proof: Induction over chunks.
* **C46 A TCPCL transfer is reported successful only if fully acknowledged.** Model: TcpSession send-side state machine. Proof: Invariant over all peer message sequences.
* **C47 TCPCL acknowledges exactly the bytes received so far.** Model: TcpSession receive-side state machine. Proof: Invariant.
* **C48 An idle TCPCL session is kept alive.** Model: timeouts as events. Proof: Negation expected; negotiation proved.
* **C49 External CLA names.** Model: `Model/Ecla.lean`, connections, packets and disconnects as steps over the module table, the CLA list and the peer map. Proof: invariant over all runs (`Lemmas/EclaNames.lean`); concrete run for the violation.
* **C50 External CLA framing.** Model: `Model/EclaFrames.lean`, the length delimited decoder over arbitrary chunks and the writing task. Proof: decoding does not depend on the chunking, induction over the packets.
* **C51 Base64.** Model: `Model/EclaFrames.lean`, encoder and decoder. Proof: induction over groups of three bytes; relation with RFC 4648 in `Spec/EclaFrames.lean`.
* **C52 Discovery beacons round-trip.** Model: `Model/Cbor.lean`, `Model/Discovery.lean`: byte-exact writer and reader for beacons. Proof: reader and writer compose (`Reads`), for every beacon built through the interface.
* **C53 Discovery services.** Model: `Model/Discovery.lean`: build_custom_service and convert_services; parsing of floats is a parameter. Proof: case analysis per tag; panics as negation.
* **C54 Beacon sequence numbers.** Model: `Model/Announcer.lean`: tasks as rounds and single sends over the destination table; address parsing is a parameter. Proof: invariant linking table, pending round and datagrams sent; stuck counter for keys that are not in printed form.
* **C55 Receiving beacons.** Model: `Model/Discovery.lean`: one datagram as one step; a panic stops the task. Proof: case analysis, induction over datagrams; panics only with byte 0x9f (`Safe`).
* **C56 Store digests.** Model: `Model/Digest.lean`: hashed text = concatenation of sorted ids, the hash is a parameter. Proof: uniqueness of sorted permutations; unique decoding of concatenated ids with one colon each; witness of a collision.
* **C57 Control routes.** Model: `Model/Httpd.lean`: router with layers, guard on addresses, all handlers as state changes. Proof: case analysis over routes and handlers, induction over requests.
* **C58 Pulling over HTTP.** Model: `Model/HttpPull.lean`: requests and answers of one peer, as a trace. Proof: induction over the list of missing ids; composition with the digest and store theorems for two nodes.
* **C59 Web socket subscriptions.** Model: `Model/Ws.lean`: sessions, command language, delivery channels, on top of the agents model. Proof: invariant tying sessions and delivery channels to the history, induction over events; witnesses.
* **C60 Discovery destinations.** Model: `Model/Announcer.lean`: add_destination and check_destinations. Proof: case analysis, induction over added destinations.
* **C61 Peer URLs are parsed faithfully.** Model: Model/PeerUrl: Url.parse for plain characters, parsePeerUrl; the bp7 parser of endpoint ids is a parameter assumed to read node names and numbers. Proof: Spec/PeerUrl writes URLs down (url, ip4, Meant, MeantNode); reading what was written by computing with takeWhile/dropWhile and digits; the disagreements are concrete URLs.
* **C62 TCPCL messages arriving in pieces are handled whatever else happens.** Model: Model/TcpclSession `IOEv`: the select loop drops a pending read together with the bytes it has taken whenever another branch wins. Proof: induction over the pieces without local events; concrete counterexamples with them.
* **C63 Store listings are exact.** Model: MemStore and SledStore listings. Proof: filter over the metadata values with the map invariant.
* **C64 Adding a bundle only if it is unknown never overwrites.** Model: `store_add_bundle_if_unknown` over both store models (Model/MemStore.lean, Model/SledStore.lean). Proof: In-memory store: from the map theorem (C01). Sled store: case split over the two trees after any history; the case of an id with metadata but no bundle is stated as a violation.
* **C65 The routing agent answers every request.** Model: the task of each agent with panics as `none`. Proof: induction over commands; dtn:none destinations and bad route files as negation.
* **C66 TCPCL refuses a transfer only if it has the bundle.** Model: Sess.receiveSeg. Proof: case analysis in every reachable state.
* **C67 The static routes file is read faithfully.** Model: Model/Routing/Static parser on characters. Proof: inversion of the word splitter, iff with an inductive description of the file.
* **C68 Bundles are only taken out of the store for a reason.** Model: `Model/Processing.lean`. Proof: invariant `Good` kept by every atomic action of every task.
* **C69 A bundle is announced and delivered at most once per reception.** Model: `Model/Processing.lean`. Proof: weights of events and an allowance for every program (`Lemmas/ProcCount.lean`).
* **C70 Copies go only to the recipients the router named.** Model: `Model/Processing.lean`. Proof: weights, as C69.
* **C71 The delivery statistic counts deliveries.** Model: `Model/Processing.lean`. Proof: weights, as C69.
* **C72 A stored bundle stays stored until it is removed.** Model: `Model/Processing.lean`. Proof: relation `Base` kept by every atomic action.
* **C73 One external router.** Model: same model, phases of a connection. Proof: invariant on the recorded connection under non-overlapping handshakes; concrete runs for the violations.
* **C74 Module isolation.** Model: `Model/Ecla.lean`, poisoned locks. Proof: well-formed packets keep the locks usable; concrete runs for the violations.
* **C75 External CLA deadlocks.** Model: `Model/EclaLocks.lean`, lock programs of every operation. Proof: ranking of locks for any number of operations; concrete deadlocks for the mixtures.
* **C76 External CLA transfer.** Model: `Model/Ecla.lean`. Proof: queue accounting (`Lemmas/EclaQueue.lean`).
* **C77 Beacons to modules.** Model: `Model/Ecla.lean`. Proof: queue accounting.
* **C78 Registration answers.** Model: `Model/Ecla.lean`. Proof: case analysis of one packet in every reachable state.
* **C79 Static peers.** Model: `Model/Discovery.lean`, `Model/Peer.lean`. Proof: induction over mixed histories of datagrams and table operations.
* **C80 Announcing goes on.** Model: `Model/Announcer.lean`. Proof: induction over histories; a dead task sends nothing.
* **C81 Beacons describe the node.** Model: `Model/Announcer.lean`. Proof: every beacon goes back to the state at the beginning of its round.
* **C82 Neighbours learn.** Model: `Model/Announcer.lean`, `Model/Discovery.lean`. Proof: composition of C81, the round trip of C52 and C55.
* **C83 HTTP calls do what they answer.** Model: `Model/Httpd.lean`. Proof: case analysis per handler on top of the lemmas about agents and stores.
* **C84 Every HTTP request is answered.** Model: `Model/Httpd.lean`: a panic of a handler is the reply `dropped`. Proof: case analysis; witnesses.
* **C85 Pulling from several peers.** Model: `Model/HttpPull.lean`: rounds over peers, a panic ends the loop. Proof: induction over peers and rounds; witness.
* **C86 Web socket deliveries.** Model: `Model/Ws.lean`: channel of 32 bundles per session. Proof: invariant: handed over = sent ++ pending; witnesses.
* **C87 Waiting bundles.** Model: `Model/Ws.lean`: one bundle fetched per endpoint on subscription. Proof: computation of one step; prefix invariant for the queue; witnesses.
* **C88 Web socket submissions.** Model: `Model/Ws.lean`. Proof: case analysis per mode.
* **C89 Settings follow command line, file and defaults.** Model: `Model/Setup.lean`: the configuration file as parsed values, the command line as found by `clap`, and the code that turns them into a configuration. Proof: inversion of the start-up code: every loop changes one field.
* **C90 The node has the id asked for.** Model: `hostOf`, with the parser of endpoint ids as a parameter. Proof: case distinction on the text; decimal numbers by induction.
* **C91 Convergence layers get the settings written down.** Model: `claOption`, `globalOption`, `fileClas`, `refuseSetting`. Proof: induction over the options, with `split` on texts put together from parts.
* **C92 Services are offered as written down.** Model: `serviceOption`, `fileService`. Proof: induction: every tag is new when it is inserted.
* **C93 Routing options are in force as written down.** Model: `routingOption`. Proof: induction; `split` is inverted for the shape of accepted options.
* **C94 Settings that make no sense are refused.** Model: all of `configure`. Proof: inversion; the violations as equations between configurations.
* **C95 A daemon runs what is configured.** Model: `startDtnd`. Proof: induction over the lists of layers, peers and endpoints.
* **C96 A convergence layer answers every transfer exactly once.** Model: `Model/Clas.lean`: command loops and sending tasks of all layers but tcp, one step per system call or lock. Proof: invariant over all runs, a measure that decreases with each internal step, progress.
* **C97 A successful transfer means the bundle was handed over.** Model: the same model with logs of datagrams, HTTP requests, submissions and byte streams. Proof: invariant relating answers and logs; for MTCP a second invariant on the bytes of each connection, then C41; witnesses for the violations.
* **C98 A convergence layer survives every transfer.** Model: the same model; socket addresses by a specification of their text. Proof: invariant that nothing in the channel ends the loop; negation for IPv6 and host names.
* **C99 Received bundles are handed on once and in order.** Model: `udpListen` and `mtcpConnection` in `Model/Clas.lean`. Proof: induction on the datagrams and frames; composition with C97.
* **C100 The daemon never waits for itself.** Model: `Model/Locks.lean`: for every function the locks it takes, in program order, with the scopes of the guards; threads over non-reentrant mutexes. Proof: a rank on locks that all calls respect, so that a chain of waiting threads cannot close; two ranks for the two admissible combinations; the remaining combination as a reachable state that is stuck for ever.
* **C101 waiting bundles of an endpoint.** Model: the processing model (Model/Processing.lean), events `delivered` and `popped`. Proof: a step relation closed under every atomic step of every call (Lemmas/ProcSteps.lean), carried along the run.
* **C102 exactly one local delivery.** Model: the processing model. Proof: a weight per event and per pending task bounds deliveries by one; C14 gives at least one; the books of C101 give the position.
* **C103 dtnrecv fetches.** Model: tool, URL reading and daemon handler (Model/Tools.lean on Model/Httpd.lean). Proof: composition of the tool with the HTTP theorems C83, case analysis on the options.
* **C104 dtnrecv changes registrations.** Model: as C103. Proof: composition with C83.
* **C105 dtnsend.** Model: the tool and the daemon's insert handler (Model/Tools.lean). Proof: case analysis; C13 for the foreign sender.
* **C106 message from application to application.** Model: tools, HTTP interface and bundle processing, connected by the registered endpoints with their queues. Proof: composition of C105, C102, C101's queue and C103; induction over the bundles waiting before.
* **C107 dtntrigger.** Model: the message loop with temporary file and command as parameters (Model/Tools.lean). Proof: induction over the messages; words of the command specified as a relation.
* **C108 dtnquery.** Model: URL writing and reading (percent and form encoding), JSON printing, status pages (Model/Status.lean). Proof: decoding inverts encoding by induction over the text; a JSON reader (Spec/Json.lean) reads every listing back.
* **C109 a node makes up no bundles.** Model: bundle processing (Model/Processing.lean) with the log of all calls. Proof: invariant over all interleavings: stored, queued and announced bundles are known; traversal of every program with a rely-guarantee logic.
* **C110 integrity across a network.** Model: any number of copies of the node model; a bundle handed to a convergence layer may arrive any number of times at any node (Model/Network.lean). Proof: invariant over all runs of the network that every bundle anywhere has a path of hops back to a submission; induction over the path.
* **C111 hop limit across a network.** Model: as C110. Proof: induction over the path of a copy; each hop counts once and passes only below the limit.
* **C112 Bundles travel along chains of nodes.** Model: chain of nodes, each with the bundle processing model after any history. Proof: induction over the chain; one hop by the weakest precondition calculus for a node left alone (`alone_*`). For nodes that do other work at the same time, one hop is C113 and the arrival is C127.
* **C113 What the router decides is carried out, whatever else the node does.** Model: Proc (Processing.lean), with `Throughout` for a condition that holds in every state of an execution. Proof: every program carries an obligation (`Will`): in all states it may meet under the condition, it is either fulfilled or passed on to the rest of the program or to a task it starts; induction over executions.
* **C114 Every call comes to an end.** Model: Proc (Processing.lean); executions in which the tasks of one call are told apart (Spec/Ends.lean). Proof: programs are well-founded trees, so the multiset of tasks shrinks (hydra ordering); invariant that every running transfer of a group has a task that will end it, belonging to the same call as the task that waits.
* **C115 The client library of external modules carries packets faithfully.** Model: ModuleClient (ModuleClient.lean): address parsing, the command channel, the writing task, the reading loop and the results of serve, for both clients. Proof: invariant over all runs relating channel, log and history; end of a call by induction over the events within it; concrete and general counterexamples.
* **C116 With epidemic routing or flooding, stored bundles spread to all neighbours.** Model: Proc (Processing.lean), Epidemic and flooding agents; the agent's history of commands is linked to the log of the node (Spec/Spreads.lean). Proof: case analysis on what the history says about the neighbour, with C34 for the answer and C113 for its execution.
* **C117 The tcp convergence layer answers every transfer, and sends each once over a shared connection.** Model: TcpPool (Model/TcpPool.lean): command loop, transfer tasks, table of connections, listener, handshake and channel, around the sessions of Model/TcpclSession.lean. Proof: invariant linking the place of every transfer to the channel and session it is in, histories of sessions, and a measure for the work left.
* **C118 Bundles sent between two nodes over tcp arrive once, in order and unaltered, and callers hear of it.** Model: two histories of TcpPool and the wire between them (Spec/TcpPair.lean). Proof: lining up the segments read with those written, invariants on what a waiting session has not read, and the invariant of C117.
* **C119 Two nodes exchanging bundles over tcp never end the connection by mistake.** Model: `Pair` of `Model/TcpclSession.lean`: two sessions and the messages under way. Proof: An invariant that, for each direction, couples the state of the sender, the segments under way, the state of the receiver and the responses under way (`Dir`); a measure that every arrival lowers.
* **C120 Bundles are carried from contact to contact to their destination.** Model: The nodes of the processing model with the epidemic routing agent, one after the other; `Journey` says what one contact does and that the copy goes on from there. Proof: `C116_next_round` for each contact, `Copied` of every transfer (Lemmas/Origin.lean) for the fitness of the copy for the remaining hops, `C102_delivered_once` at the end; induction over the list of contacts.
* **C121 External routing program.** Model: Model/Erouter.lean: the program's packets, peer table, epidemic and flooding strategies; requests carry the layer names of the node; `External.unpack` is what the node makes of a reply. Proof: Induction over the packets (Lemmas/Erouter.lean); the comparison with built-in routing by a simulation on what each history records; negations by concrete runs and, for layers that accept nothing, by induction over the number of retries.
* **C122 External routers know the neighbours.** Model: Model/Erouter.lean: `tell`, the changes of the peer table and the packets sent for each. Proof: Invariant: what was told and the table agree, kept by every announced change; negations by concrete histories with the resulting replies.
* **C123 Echo service.** Model: Model/EchoPing.lean: the program's phases and its connection, on top of the web socket model (Model/Ws.lean); messages in both directions are queued, and their handling interleaves with all other events of the node. Encoding and decoding are assumed to match for the bundles handed over (`Readable`). Proof: Invariant over the moves (Lemmas/EchoRun.lean, EchoSteps.lean): what was written is the list of answers to the bundles read, what was read is a prefix of what was handled; negations by iterating one round (Lemmas/EchoRound.lean), by C65, and by a concrete run.
* **C124 Ping program.** Model: Model/EchoPing.lean: the loop as an automaton over what it hears; `hears` gives what it hears for messages arriving at given times. Proof: Invariant between two reads; reports by induction over prefixes; negations by concrete runs and by induction over the heartbeats.
* **C125 Program that connects N nodes.** Model: Model/ConnectN.lean: the nodes (Model/Ecla.lean), the clients (Model/ModuleClient.lean), the channels between them and the loop of the program; all their steps interleave, together with everything else that can happen at the nodes. The encoding of bundles in packets is a parameter; it has to match for the bundles that are sent. Proof: Invariant over the steps (Lemmas/ConnectNRun.lean): for each pair of nodes, what the sender's client has passed on is what is there for the receiver's client followed by what waits in the program; what a node received is what was written after the registration (Lemmas/ConnectNFlow.lean, EclaWatch.lean). Negations by concrete runs, and for the waiting by an invariant of all continuations (Lemmas/ConnectNJam.lean).
* **C126 Programs that carry bundles over TCP.** Model: Model/Bridge.lean: the two programs as one automaton with parameters: channels, connection table, outgoing connections as written bytes, incoming connections as chunks read, and the step between finding a connection and using it. The framing is that of Model/Mtcp.lean and Model/EclaFrames.lean; the client library is Model/ModuleClient.lean, here only its two channels. Proof: Invariants over the steps for sending (Lemmas/Bridge.lean) and receiving (Lemmas/BridgeIn.lean), the framing theorems C41 and C50 for reading back, and sorting by connection (Lemmas/BridgeMore.lean). The negations hold in every state that meets their hypotheses, with concrete runs beside them.
* **C127 Delivery under interference.** Model: Model/Processing.lean with every interleaving of tasks and calls; Spec/Given.lean says when a bundle was given to its endpoint and what may not happen before. Proof: the logic of ProcWill (a task owes something whatever the others do) as for C113; what becomes of the bundle afterwards by the queue law of C101, and the upper bound by C69.
* **C128 What the persistent store holds survives restarts, and what was removed never comes back.** Model: Model/SledNode: all of core/processing.rs and core/mod.rs over the sled store, as interleaved tasks; a restart keeps the database and drops tasks, endpoints and peers; a stop may cut a store call short after any of its writes. Proof: One walk through all programs (Lemmas/SledNode `Keeps`) parametrised by what the actions guarantee, instantiated with the agreement between log and database (Lemmas/SledHistory).
* **C129 Bundles in the persistent store are taken up again after a restart.** Model: The same model; the obligations of C113 over it. Proof: Obligations (`Will`) through the janitor and `forward` (Lemmas/SledResume); for the disagreement, the walk with an invariant that the bundle is known and unmarked (Lemmas/SledStranded) and a concrete run in sequential mode.
* **C130 The node's guarantees hold with the persistent store, too.** Model: The programs of `Model/SledNode.lean`, with stops of the process between and inside calls of the store. Proof: The programs make only actions of the kinds that keep the invariant of the node with the memory store (`Lemmas/SledWalk.lean`); so do restarts and calls of the store that are cut short (`Lemmas/SledGood.lean`).
* **C131 Foreign sources are refused across restarts.** Model: Model/SledNode with restarts. Proof: the walk of C13 under interleavings (Lemmas/Foreign) for the programs over the persistent store; the bundle's metadata never wait for forwarding, and a task that has stored it goes on to remove it; the second part fails if the process stops in between.
* **C132 A node with the persistent store makes up no bundles.** Model: Model/SledNode with restarts. Proof: the invariant of C109 (Lemmas/Origin) walked through the programs over the persistent store; restarts clear the queues and keep the database, a cut operation changes metadata only.
* **C133 Bundles keep identity, contents and hop limit in networks whose nodes restart.** Model: Model/MixedNetwork: nodes running the programs over memory or over the database. Proof: the invariant of C109 and C132 for all nodes at once, and what the steps of a path do to a bundle as in C110/C111.
* **C134 Bundles for an application reach it, with the persistent store.** Model: Model/SledNode: the programs over the database; queues are part of the node, and gone after a restart. Proof: what a task owes (as in C127) for the programs over the database; queues as in C101; after a stop the property fails (C129_stranded_violated).
* **C135 Numbers of events and statistics are right, with the persistent store.** Model: Model/SledNode: the programs over the database; the statistics start from zero after a restart. Proof: weights of events and statistics with allowances for parts of the programs (as in C10), for the programs over the database, in which calls of the store can end a task; bounds that hold at any time hold across restarts as well; the once-only acceptance of C128.
* **C136 The janitor keeps running.** Model: Model/Cron: the loop of the timer, with the phases waiting, running (what is left of the janitor and the tasks it has started) and stopped by a panic, beside all other tasks of the node; changes of the node from outside and new calls at any time. Proof: an invariant over what is left of a round (no panic is ahead, or the previous node blocks in the store can be read), and the termination measure of C114 for the janitor's tasks alone in executions that are fair to them.
* **C137 What has expired goes, what waits is tried again.** Model: Model/Cron, Model/Processing and Model/Peers, as in C136. Proof: the steps a run of the janitor has to make (Lemmas/ProcWill) under an invariant that other tasks keep; a run begins again and again by C136.
* **C138 Every call comes to an end, with the persistent store.** Model: Model/SledProcessing with restarts, the tasks of a call followed beside all others (Spec/SledEnds). Proof: every program of the node with the database owes only what it has put up for waiting (Lemmas/SledCalm); tasks that a restart has ended are carried as dead ones that never hold anything up; the measure of C114 does the rest.
* **C139 The janitor keeps running and does its work, with the persistent store.** Model: Model/SledCron: the timer loop of Model/Cron with the programs of Model/SledNode, over many lives of the process. Proof: metadata of a bundle never leave the database, so what the janitor's own task looks up is there (an invariant over what is left of its task); tasks of earlier processes count as tasks that never make a step again; the rest as in C136 and C137.
* **C140 No bundle kept for another node is forgotten.** Model: the tasks of Model/Processing and the janitor's loop of Model/Cron. Proof: a predicate on what is left of a task (it restores the waiting mark if it has taken it away), established for every call and preserved by every step; at rest no task is left to owe anything; with C137 the janitor takes the bundle up again.
* **C141 TCPCL messages are those of RFC 9174.** Model: `write`, `readPacket`, `readContactHeader` (`Model/TcpclNet.lean`); the layout of the RFC is an independent relation between messages and bytes (`Spec/TcpclLayout.lean`). Proof: case by case over the messages, fields by their big-endian value; extension items by induction over the items; the four deviations are proved for all messages of the form in question.
* **C142 JSON text of external convergence layer packets.** Model: `Model/Serde`: the compact writer of `serde_json` and its reader as a machine over characters, with the limit of 127 levels. `Model/EclaJson`: the derived writer and reader of `Packet`. Proof: `Spec/JsonGrammar` is the grammar of RFC 8259 as an inductive relation between values and texts. By induction on derivations the machine reads every text of the grammar (`parse_text`), and every text written is in the grammar. Objects are compared field by field with `Spec/EclaJson`; Base64 texts are accepted exactly if they are those of RFC 4648.
* **C143 JSON text of external router packets.** Model: `Model/RouterJson.lean` (derived writers and readers of all 13 packets) over `Model/Serde.lean` (JSON text). Proof: `Spec/RouterJson.lean` describes each packet as an object; each reader is shown to accept exactly the values of its kind, combined field by field; the writer's text is parsed by the grammar of `Spec/JsonGrammar.lean`.
* **C144 records in the database.** Model: `Model/PackCbor.lean`: the derived CBOR writer and reader of `BundlePack`, and the database of `Model/SledStore.lean` with the bytes of the records. Proof: `Spec/PackCbor.lean` lays out a record with the CBOR relations of `Spec/BeaconLayout.lean`; each reader is shown to read every layout of its kind (`Lemmas/CborRead.lean`); the database with bytes is shown to simulate the one with records (`Lemmas/PackDb.lean`).
* **C145 beacons through external modules.** Model: `Model/EclaBeacon.lean`: `generate_beacon` and the case `Packet::Beacon` of `handle_packet`, on top of the service blocks of `Model/Discovery.lean`, the peer table and the JSON packets of `Model/EclaJson.lean`. Proof: the generated block is shown to be a CBOR layout of the node's layers and services (`Spec/BeaconLayout.lean`), any such layout to be read as what it lists, and the packet to survive its JSON text (C142).
* **C146 the store `sneakers`.** Model: `Model/SneakersStore.lean`: all of `core/store/sneakers.rs` over an abstract database with the operations that it calls; `Spec/SneakersStore.lean` says what is assumed of it, and a table in `Props/SneakersStore.lean` fulfils it. Proof: an invariant relates the database to the history of calls; flags are related to sets of constraints bit by bit.
* **C147 Spray and wait spends its copies.** Model: Model/Routing/Spray.lean (the agent's task with its log of commands and answers). Proof: The record of the bundle is tied to the relays in the log (number of copies, names of nodes) by induction over the commands; the loop's answer is computed by induction over the neighbours.
* **C148 No bundle kept for another node is forgotten by a node with a persistent store.** Model: The programs of Model/SledNode.lean and the janitor of Model/SledCron.lean; executions with stops except during the removal of the bundle are in Spec/SledWaiting.lean. Proof: As C140, with an obligation that a task has from a given state on (Lemmas/SledWaiting.lean): the panics of the persistent store are harmless, since a task that has to see to the bundle asks only for entries that exist. A write that is cut short concerns a bundle that is not stored.
* **C149 A node with epidemic routing gives a bundle to each neighbour once.** Model: The processing programs of Model/Processing.lean and the epidemic router of Model/Routing/Epidemic.lean, joined by Spec/RouterTalk.lean: the log of the node and the history of the router agree on questions, answers and notifications about bundles. Proof: Induction over an execution from question to question (Lemmas/RouterTalk.lean), with the bounds of C70 for the node (every copy was named by an answer, every outcome is told) and an invariant of the router: a neighbour that was named is remembered until a failure is told.
* **C150 A node with spray and wait routing keeps to its budget of copies.** Model: As C149, with the router of Model/Routing/Spray.lean. Proof: The bound of C35 on the history of the router, carried over to the log of the node by the agreement of both; for bundles of others by induction from question to question, since a failure to another node would need a copy to another node before.
* **C151 A node hands bundles only to whom its router may choose, and lets go of them only when they have arrived there.** Model: The processing programs on both stores with the routers of Model/Routing; Spec/RouterNode.lean joins the log of the node and the histories of the routers from start to start. Proof: The invariants of C70 and C68 (every copy was named by an answer, every removal on the router's word follows an answer that asks for it and a transfer that succeeded), with what each router answers (Lemmas/RouterNode.lean).
* **C152 Routing limits hold over restarts.** Model: `EitherStore` and `RoutedBy` of Spec/RouterNode.lean: a node with the store in memory or the database, whose router starts anew with every start of the node. Proof: weights over the log of the node (`Enough.always`) against the bounds of the routers for each of their sessions, added up; the counterexamples are executions with a restart.
* **C153 A network of spray and wait nodes does not multiply a bundle.** Model: A list of nodes, each with its own execution, router and restarts; a bundle comes in only where a copy was handed over for this node (Spec/SprayNetwork.lean). Proof: Counting: a node that takes in a bundle was called with it, so some node handed over a copy for its name; the names are distinct, so there are at least as many transfers to other nodes in the network, which C152 bounds node by node.
* **C154 The web pages show what the node has, and nothing on them is taken for markup.** Model: Model/WebPages.lean: the three templates in webroot as lists of parts, the escaping of the template engine, and what the handlers put in. Spec/Html.lean: how a reader of HTML sees a page (tags, links, texts of titles, headings, paragraphs and cells), the five character references, and what a browser asks for when a link is followed. Proof: Reading is compositional; each piece of template text is read once by evaluation, values contain no brackets after escaping, and escaping is undone by the character references. The text of the templates is copied from the files in webroot; formats of sizes and durations are parameters.

<!-- generated by tools/gen_design.py -->

## What is modelled, file by file

Paths of the source are relative to `/repo/core/dtn7/src`, those of examples to `/repo`. Logging, `Display`,
help texts and trivial accessors are left out everywhere. Not modelled at all: examples that are not in the
table or not in Rust, `/repo/core/codegen` (its one
macro registers convergence layers; its result is written out in `Model/Setup.lean`), `/repo/fuzz` and tests.

| source | model | left out |
|---|---|---|
| `bin/dtnd.rs` | Announcer, Setup | the logger, daemonisation, help and version output of the option parser |
| `bin/dtnquery.rs` | Status, Tools | the HTTP transport below the request; terminal output beyond the printed text |
| `bin/dtnrecv.rs` | Tools | the HTTP transport below the request |
| `bin/dtnsend.rs` | Tools | the HTTP transport below the request; reading of the clock is a parameter |
| `bin/dtntrigger.rs` | Tools | the web socket transport; the operating system's file and process functions are parameters |
| `cla/dummy.rs` | Clas | nothing else |
| `cla/ecla/mod.rs` | Ecla, EclaFrames, EclaJson, ModuleClient | nothing else |
| `cla/ecla/processing.rs` | ConnectN, Ecla, EclaBeacon, EclaLocks, Erouter, Network, Processing | nothing else |
| `cla/ecla/tcp.rs` | Ecla, EclaFrames, EclaJson, EclaLocks, Serde | accept errors of the operating system |
| `cla/ecla/ws.rs` | ConnectN, Ecla, EclaJson, EclaLocks, Serde | the web socket handshake |
| `cla/ecla/ws_client.rs` | ConnectN, EclaJson, ModuleClient, Serde | the web socket handshake |
| `cla/external.rs` | Clas, Ecla, Setup | nothing else |
| `cla/http.rs` | Clas | the HTTP transport below request and response |
| `cla/httppull.rs` | Clas, HttpPull, Network, Processing | the HTTP transport below request and response |
| `cla/mod.rs` | Clas, Peer, TcpPool, TcpclSession | help texts (generated by the `cla` macro) |
| `cla/mtcp.rs` | Clas, Locks, Mtcp, Network, Processing, Setup | `send_bundles` and `MPDU::new` for several bundles, which nothing calls |
| `cla/tcp/mod.rs` | Erouter, Locks, Network, Processing, Setup, TcpPool, TcpclNet, TcpclSession | TCP itself: connections are reliable byte streams that may end at any time |
| `cla/tcp/net.rs` | TcpclNet | nothing else |
| `cla/tcp/proto.rs` | TcpclNet | nothing else |
| `cla/udp.rs` | Clas, Network, Processing, Setup | datagrams may be lost; fragmentation by the network |
| `client/data.rs` | — | a re-export |
| `client/ecla.rs` | — | a re-export |
| `client/erouting.rs` | — | a re-export |
| `client/mod.rs` | — | a re-export |
| `core/application_agent.rs` | Agents, Locks, Processing, SledNode, Ws | nothing else |
| `core/bundlepack.rs` | Bundle, Digest, MemStore, Pack, PackCbor, Processing, RouterJson, Routing/External, SledNode, Status | CBOR texts of records that no node writes (further keys, numbers as keys) |
| `core/helpers.rs` | Digest, Httpd, PeerUrl, Setup | `rnd_peer` (random test data) |
| `core/mod.rs` | Agents, Announcer, Cron, Erouter, Janitor, Locks, Peer, Processing, SledNode, Status, WebPages | nothing else |
| `core/peer.rs` | Httpd, Locks, Peer, RouterJson, Status, WebPages | nothing else |
| `core/processing.rs` | Agents, Bundle, Clas, Cron, Erouter, Locks, Peer, Processing, SledNode | the channel in front of `send_bundle` (`send_through_task`, `sender_task`) only delays a call and is covered by calls starting at any time; measuring of processing times |
| `core/store/mem.rs` | AList, MemStore, MixedNetwork, Network | nothing else |
| `core/store/mod.rs` | Cron, Digest, MemStore, Setup, SledNode, SledStore, SneakersStore, Status | nothing else |
| `core/store/sled.rs` | AList, MixedNetwork, Network, PackCbor, SledNode, SledStore | sled's own files |
| `core/store/sneakers.rs` | Network, Sneakers, SneakersStore | opening (`new`); directory and database of the crate `d7sneakers` are parameters |
| `dtnconfig.rs` | Announcer, Setup | the TOML parser (its result is the input of the model) |
| `dtnd/cron.rs` | Cron, SledCron | the length of the intervals (a timer fires at some later time) |
| `dtnd/daemon.rs` | Agents, Cron, Ecla, Locks, Network, Peer, Setup, SledCron, SledNode | the disabled code in comments |
| `dtnd/httpd.rs` | Agents, Digest, Erouter, HttpPull, Httpd, JsonText, Locks, Network, Peer, Processing, SledNode, Status, Tools, WebPages | routing inside `axum` |
| `dtnd/janitor.rs` | Cron, Locks, Processing, SledCron | nothing else |
| `dtnd/mod.rs` | — | a re-export |
| `dtnd/ws.rs` | EchoPing, Locks, White, Ws | the web socket handshake |
| `ipnd/beacon.rs` | Discovery | nothing else |
| `ipnd/mod.rs` | — | a re-export |
| `ipnd/neighbour_discovery.rs` | Announcer, Discovery, Erouter, Locks, Peer | socket options and joining of multicast groups |
| `ipnd/services.rs` | Discovery, White | nothing else |
| `lib.rs` | AList, Agents, Announcer, Bundle, Ecla, EclaLocks, Httpd, Locks, MemStore, Peer, Processing, Setup, SledNode, SledStore, SneakersStore, WebPages | nothing else |
| `routing/epidemic.rs` | Erouter, Locks, Routing/Epidemic | nothing else |
| `routing/erouting/mod.rs` | Erouter, RouterJson, Routing/External | packets and structures given as JSON lists; the text of bundles and reading of endpoint ids (crate `bp7`) |
| `routing/erouting/processing.rs` | Erouter, Locks, RouterJson, Routing/External | the web socket handshake |
| `routing/erouting/ws_client.rs` | ModuleClient, RouterJson | the web socket handshake |
| `routing/external.rs` | Routing/External | nothing else |
| `routing/flooding.rs` | Locks, Routing/Agent | nothing else |
| `routing/mod.rs` | Routing/Agent, Routing/Epidemic, Setup | nothing else |
| `routing/sink.rs` | Routing/Agent | nothing else |
| `routing/sprayandwait.rs` | Locks, Routing/Agent, Routing/Spray | nothing else |
| `routing/static_routing.rs` | Locks, Routing/Static, White | the glob matcher is a parameter; notifications are only logged |
| `examples/dtnecho2.rs` | EchoPing | the option parser, printing; the web socket is two queues of messages; encoding of requests is a parameter |
| `examples/dtnecla_connect_n.rs` | ConnectN | the option parser and log output; a client address that is not `ip:port` (the task panics) |
| `examples/dtnecla_json_mtcp.rs` | Bridge | as for `dtnecla_mtcp.rs`; the JSON text of packets (a parameter) |
| `examples/dtnecla_mtcp.rs` | Bridge | the option parser and log output; failures of `bind`, `accept` and `try_clone` (panics); bytes that TCP accepts but never delivers |
| `examples/dtnerouting.rs` | Erouter | the web socket transport, the option parser; packets are decoded already |
| `examples/dtnping.rs` | EchoPing | the option parser, the set-up of the connection, payload and encoding of the pings; printing is what is reported |

## Where code and properties disagree

Each of these theorems shows that the code, as modelled, does not have the property as stated in English.
The other theorems of the property say what does hold.

* `C04_mem_resubmission_violated`: C04 is false for the in-memory store: in every reachable state, a removed bundle is accepted again by `store_add_bundle_if_unknown`, is available again and its `Deleted` mark is gone.
* `C05_sled_lookup_violated`: C05 is false for lookups: for every id that is not stored, in every state, `get_bundle` panics instead of returning `None`; likewise `get_metadata` and `remove` for unknown ids.
* `C06_sled_interrupted_push_violated`: C06, second half, is false: a crash after the first write of the push of a new bundle loses that bundle for good; no later history of calls and crashes makes it available.
* `C11_overflow_violated`: C11 is false when creation time plus lifetime exceeds 64 bits: a bundle that is not expired (created at 1000, now 2000, lifetime of 584 million years) is removed by the sweep.
* `C15_hop_limit_violated`: C15 is false as it stands: a bundle with limit 255 and count 255 is sent, with count 0.
* `C17_too_old_violated`: C17 is false as it stands: a bundle with a lifetime of 1000 ms is sent at an age of 5000 ms.
* `C19_wrong_block_violated`: C19 is false as it stands: with a known block before the unknown one that asks for removal, the known one is removed.
* `C19_aborts_violated`: C19 is false as it stands: with three unknown blocks that ask for removal, reception can abort.
* `C21_received_violated`: C21 is false as it stands: a status report that asserts reception only removes its subject.
* `C23_unnamed_violated`: C23 is false for a neighbour without a node name: the transfer task panics before it tells the router.
* `C24_stays_deleted_violated`: C24 is false as it stands: a bundle is deleted by a client while a task is about to forward it.
* `C28_two_nodes_share_entry_violated`: C28 (last clause) is false: the node `ipn:5.0` and the node `dtn://5/` have the same name, so adding one replaces the entry of the other, whatever the table held before.
* `C29_clock_set_back_violated`: C29 is false if the clock is set back: every dynamic peer whose last contact is then in the future, be it by a second, is dropped at the next check, whatever its timeout (up to `2 ^ 63` seconds, and the clock set back by no more), and the router is told.
* `C30_fresh_announcement_lost_violated`: C30 is false under concurrency: the failure is counted and the peer removed under two separate locks.
* `C30_count_wraps_violated`: C30 fails for the number of failures shown: after 65536 failures of a static peer, the table tells that there were none. (A debug build panics instead.)
* `C34_unselected_peer_counts_as_served_violated`: C34 (last sentence) is false: `n1` comes before the destination `d` in the peer table.
* `C35_second_arrival_refills_budget_violated`: C35 is false without the restriction: sending the same bundle to the router again refills the budget and forgets who has it.
* `C35_ipn_bundles_never_relayed_violated`: C35 is false for `ipn` nodes: the id of a bundle created on node `ipn:5.0` by its service 1 does not start with the node id, so the bundle gets no copies to relay, whatever the history.
* `C36_failure_keeps_failed_and_drops_others_violated`: C36 is false: in every state, after a failure report for node `n`, the node stays recorded as served, so it is not selected again, and every served node whose id does not contain the characters of `n` is forgotten.
* `C36_wrong_peer_retried_violated`: C36 in a run: the transfer to `n1` fails. Asked again, the router selects `n2`, which has the bundle, and not `n1`.
* `C36_failed_direct_delivery_adds_copy_violated`: C36 in a run: direct delivery takes no copy, but its failure adds one.
* `C39_response_lost_violated`: C39 is false for packs with two constraints: the response contains the same set of constraints, but the set built from it iterates in another order, so the response is not matched with the request and the request times out.
* `C39_overlap_violated`: C39 is false when two requests for one bundle overlap: both end without peers although the router's response was read before any timer fired.
* `C44_extension_length_underflow_violated`: C44 is false: any START segment announcing extension items of `extLen` bytes whose first item claims to be longer than that makes the reader's length arithmetic underflow (a panic with overflow checks; without them the message boundary is lost).
* `C44_huge_segment_violated`: C44 is false: a segment announcing 2^63 bytes or more makes the reader panic on the allocation before any of the data has arrived.
* `C46_refusal_reported_successful_violated`: C46 is false for refusals: in the mode that asks first, a refusal for any reason — here that the peer has no resources — is reported as success although nothing of the bundle was transferred.
* `C48_first_timeout_terminates_violated`: C48 is false: whatever happened before, if the peer has not just sent a keepalive, the very first silent interval ends the session at once; the peer is given no time to answer.
* `C48_dead_peer_never_detected_violated`: C48 is false: a keepalive of the peer is answered by one, and then no number of silent intervals ends the session or makes it send anything.
* `C48_zero_does_not_disable_violated`: C48 is false: a peer announcing keepalive 0 (no keepalives wanted) sets the timer to zero instead of disabling it.
* `C49_address_reuse_violated`: C49 fails if a TCP address is used again too soon: both connections have ended, but the name stays registered.
* `C50_large_packet_violated`: C50 fails for packets above 8 MiB: the reader ends with an error and gets nothing of what follows, although the sender's side accepts such packets.
* `C50_partial_write_violated`: C50 fails on the sending side: `try_write` may write only part of a frame, and the rest is dropped.
* `C52_period_rounded_violated`: C52 fails for periods with a fraction of a second: whatever else the beacon holds, the period read is rounded down, so a period below one second becomes zero.
* `C53_bad_coordinates_violated`: C53 fails: coordinates that are no numbers are not rejected but make the program panic.
* `C53_bad_payload_violated`: C53 fails: one meaningless payload (a text that is no UTF-8, fewer than eight bytes of coordinates, no battery level) makes decoding panic, whatever the other services are.
* `C54_default_v6_violated`: C54 fails for the default IPv6 destination: it is stored in upper case but counted under the printed form in lower case, so all its beacons carry number zero.
* `C54_two_families_violated`: C54 fails with both address families: both tasks count every destination, also those their socket cannot reach.
* `C55_own_name_taken_violated`: C55 fails for other endpoints of this node: a beacon that names one of them creates an entry under this node's own name, so bundles for this node's name are offered to the sender of the beacon.
* `C55_receiver_stopped_violated`: C55 fails: a beacon with endpoint `dtn:none`, a beacon with a meaningless service and a beacon written as an array of indefinite length each stop the task; no later beacon is recorded, whoever sends it.
* `C56_different_sets_violated`: C56 is violated for ids with further colons: one bundle whose source service looks like the end of an id and the start of another is hashed like two bundles, so nodes knowing different sets publish the same digest.
* `C56_filtered_digest_violated`: The digest of the bundles selected by an address depends on the order in which the store lists them: two nodes holding the same two bundles hash different texts.
* `C57_sockets_violated`: C57 is violated for the sockets of external routers and external convergence layers: they are opened for every address.
* `C58_rest_not_fetched_violated`: C58 is violated when a download fails: the bundles listed after it are not requested although they are missing.
* `C58_odd_digest_violated`: C58 is violated when the answer to the digest request is not 40 bytes long: the round is reported successful and nothing is requested, whatever the peer has.
* `C59_takeover_violated`: C59 is violated when two clients subscribe to one endpoint: the second one takes it over, and when the first one leaves, the second one, still subscribed and connected, gets nothing any more.
* `C59_foreign_unsubscribe_violated`: C59 is violated by the unsubscription of another client, which need not be subscribed to the endpoint itself, only to some endpoint.
* `C59_reregister_violated`: C59 is violated when an endpoint is unregistered and registered again: a client that is subscribed gets nothing.
* `C59_service_unsubscribe_violated`: C59 is violated for subscriptions made with a service name: the same name cannot be used to unsubscribe.
* `C60_unparsable_violated`: C60 fails: a text that is no address panics instead of being rejected.
* `C61_default_port_violated`: The statement of C61 for the port is false: port 80 given in an `http` URL is lost, so the peer is contacted on the port of the layer instead.
* `C61_ipv6_violated`: The statement of C61 for the host is false: an IPv6 address is kept as a name, with its brackets.
* `C61_slashes_violated`: The statement of C61 for the node is false: slashes are dropped, so different URLs name the same peer.
* `C62_request_during_read_loses_message_violated`: C62 is false: if a bundle is handed to the session while a message has arrived only in part, the part already read is lost, the rest is taken for the beginning of a message and the session breaks.
* `C62_partial_read_dropped_violated`: C62 is false in general: whatever part of a message has been read when a request is taken or the timer fires is gone.
* `C64_sled_removed_violated`: C64 is false for the sled store: once a bundle was removed (or a crash left only its metadata), adding it again is answered with an error instead of `true` although no bundle with this id is available, and it is not stored.
* `C65_null_destination_stops_epidemic_violated`: C65 is false for epidemic routing: asked for a bundle addressed to `dtn:none` while it has a usable neighbour, the agent's task panics, and no later request is ever answered, whatever the history before and after.
* `C65_null_destination_stops_spray_violated`: C65 is false for spray and wait: a bundle addressed to `dtn:none` that came from elsewhere stops the agent.
* `C65_bad_routes_file_stops_static_violated`: C65 is false for static routing: reloading a file with one bad line (here a route without via) stops the agent.
* `C65_dropped_neighbour_stops_external_violated`: C65 is false for external routing: the notification about a neighbour that has been removed from the peer table in the meantime stops the agent, so a later request is never answered.
* `C73_two_routers_violated`: C73 is false: two routers that connect at the same moment both pass the check and are both served.
* `C73_slot_lost_violated`: C73 is false: after a router sent binary data that is no text its connection is over, but it stays recorded and every router after it is refused.
* `C74_bad_beacon_stops_all_modules_violated`: C74 fails: once an active module has sent a service block that cannot be read, no module table changes any more, no bundle or beacon of any module is accepted, and every transfer to any module fails, for ever.
* `C74_second_refusal_stops_all_modules_violated`: C74 fails in the same way if a module whose name was refused tries once more.
* `C74_binary_data_stops_all_modules_violated`: C74 fails for binary web socket data: other web socket modules can no longer connect, and the next announcement stops all modules.
* `C75_packet_and_submission_violated`: C75 fails: a packet of any module (or an announcement) and a bundle handed to any module block each other if each has taken its first lock.
* `C75_announcement_and_submission_violated`: C75 fails in the same way for an announcement.
* `C76_success_without_transfer_violated`: C76 fails: a transfer is reported successful although the bundle was dropped because the queue is full.
* `C77_unwanted_beacons_violated`: C77 fails: the second module of `eclaTwo` asked for no beacons but gets one.
* `C74_bad_beacon_stops_all_modules_violated`: C74 fails: once an active module has sent a service block that cannot be read, no module table changes any more, no bundle or beacon of any module is accepted, and every transfer to any module fails, for ever.
* `C74_second_refusal_stops_all_modules_violated`: C74 fails in the same way if a module whose name was refused tries once more.
* `C79_static_peer_lost_violated`: C79 fails: a beacon of a statically configured node replaces its entry by a dynamic one, with the address the beacon came from; when no further beacon comes, the periodic check drops the peer although it was configured statically.
* `C80_announcing_stops_violated`: C80 fails: once a service outside the limits is registered, which is not checked, the next round of each task panics and no beacon is sent any more.
* `C81_configured_services_violated`: C81 fails: services given in the configuration file or on the command line are never announced, whatever they are; only services registered at run time are.
* `C52_period_rounded_violated`: C52 fails for periods with a fraction of a second: whatever else the beacon holds, the period read is rounded down, so a period below one second becomes zero.
* `C84_answered_violated`: C84 is violated: a client on the host that sends to an unreadable destination gets no answer at all, and neither does one that adds a peer with an unknown type, or registers a service by name on a node with a numeric id.
* `C85_puller_dies_violated`: C85 is violated without parallel processing, which is the default: if one peer answers the list request with something else than a list of ids, no peer after it is asked in this round, and no peer at all in any later round.
* `C86_lost_at_end_violated`: C86 is violated at the end of a connection: a bundle handed to the session and not sent yet is neither sent nor waiting nor stored any more.
* `C86_no_payload_violated`: C86 is violated in the data modes for a bundle without payload: it is taken from the store, and the client hears nothing.
* `C87_second_stuck_violated`: C87 is violated when more than one bundle waits: after the subscription the second one is not sent, and it never is, whatever arrives and however long the session goes on; a bundle that arrives later overtakes it.
* `C87_service_name_violated`: C87 is violated for a subscription by service name: nothing that waits is sent.
* `C88_silent_violated`: C88 is violated for data with an unreadable source or destination: nothing is submitted and the client is not told.
* `C89_flags_violated`: With a configuration file all flags of the command line are ignored: the daemon is configured as if they were not there.
* `C89_destinations_violated`: With a configuration file that names no destination, destinations on the command line do not replace the default one.
* `C90_big_number_violated`: Numbers of 64 bits and more do not become node numbers, but names that start with a digit.
* `C91_unknown_violated`: A layer that does not exist is ignored without a word: the daemon is configured as if the option was not there.
* `C91_cut_violated`: A value is cut at the first `=` in it.
* `C91_second_global_violated`: Only the first of several global settings in one option counts.
* `C91_override_violated`: Global settings are said to override local ones. For refusing bundles that are in the store already it is the other way round.
* `C92_colon_violated`: A payload is cut at the first colon in it.
* `C94_unknown_violated`: Algorithms and stores that do not exist are ignored on the command line: the daemon starts with others.
* `C94_file_port_violated`: A number in the file that is no port number is taken modulo 2^16.
* `C94_file_span_violated`: A time span in the file that cannot be read counts as 0: no announcements, no cleaning up, or peers that time out at once.
* `C97_ipv6_never_violated`: C97 fails for UDP and HTTP to IPv6 addresses: a transfer of data never succeeds.
* `C97_http_status_violated`: C97 fails for HTTP: whatever the status of the response, also `400 Bad Request` from a peer that could not read the bundle, the transfer counts as successful.
* `C97_dummy_violated`: C97 fails for the layer `dummy`, which is meant for tests: every transfer succeeds and nothing is sent.
* `C97_mtcp_overlap_violated`: C97 fails for MTCP if two transfers to the same peer overlap: both succeed, but the peer, which is sent both through one connection, gets neither of them, however the bytes are cut, and drops the connection.
* `C98_bad_destination_violated`: C98 fails for MTCP and UDP: a destination that is no IP address with port ends the layer.
* `C98_peer_destinations_violated`: C98: the destinations made of peers with an IPv6 address or a host name are no IP addresses with port. (An IPv6 address in text has at least two colons.)
* `C99_udp_error_violated`: C99 fails for UDP if receiving fails once: nothing is received any more until the daemon is started again.
* `C100_start_page_violated`: C100 fails: whatever else is going on, a request for the start page and a round of the janitor that meets a dynamic peer can get into a state from which neither of them ever returns; nor does any other call from then on that reads the configuration or the peer table.
* `C103_short_violated`: C103 is false as it stands: a bundle whose encoding has 45 bytes is fetched, not written anywhere, and the exit code is 0.
* `C103_file_violated`: C103 is false as it stands: if the file cannot be written the bundle is lost.
* `C104_name_violated`: C104 is false as it stands: with `dtnrecv -u 'in#old'` the endpoint `in` is unregistered.
* `C105_refused_violated`: C105 is false as it stands: `dtnsend` ends with code 0 although the daemon refuses the bundle.
* `C105_foreign_violated`: C105 is false as it stands: with the id of another node as sender, `dtnsend` says that the bundle was sent and ends with code 0; the daemon drops it, and it is neither stored nor delivered nor transmitted.
* `C107_verbose_violated`: C107 is false as it stands: with `--verbose` a bundle without payload ends the tool, and the next one is not handled.
* `C108_verbose_violated`: C108 is false as it stands: with `-v` the filter is ignored; a bundle is listed although no bundle mentions the address.
* `C108_text_violated`: C108 is false as it stands: for the text `n3&addr=n2`, which no bundle mentions, a bundle is listed.
* `C108_digest_violated`: The digest of `dtnquery bundles -d` covers bundles that `dtnquery bundles` does not list: here none is listed, but the digest is not that of an empty node (unless the hash collides).
* `C109_same_id_violated`: Ids matter: while a received bundle for `x` is being processed, a client submits a bundle with the same id for `y`.
* `C15_hop_limit_violated`: C15 is false as it stands: a bundle with limit 255 and count 255 is sent, with count 0.
* `C19_wrong_block_violated`: C19 is false as it stands: with a known block before the unknown one that asks for removal, the known one is removed.
* `C115_ipv6_violated`: An address with two colons, as every IPv6 address with a port has, is refused, although the daemon's web server listens on IPv6 addresses.
* `C115_bad_port_violated`: The client of a router panics at a port that is no number, where it should return an error.
* `C115_reconnect_violated`: **Reconnecting.** A client cannot be used again: in every later call of `serve` that connects, `serve` may return at once, and reports success unless the daemon has complained; no packet, not even the registration, is put on that connection.
* `C115_full_violated`: **Too many commands.** A convergence layer module whose users have queued 100 commands before `serve` has connected never registers: `serve` waits for ever for room in a channel that nobody reads.
* `C115_early_violated`: **Too early.** Packets that are queued before `serve` has connected go out before the registration, and the daemon ignores them: whatever state it is in, a bundle or beacon from a module that has not registered changes nothing.
* `C115_lost_violated`: **Lost packets.** After the connection has ended, commands are still accepted without an error, and their packets are lost.
* `C115_binary_violated`: **Panic.** A message that is not UTF-8 makes `serve` panic.
* `C117_ipv6_violated`: C117 is false for peers with an IPv6 address or a host name: their destinations cannot be read, so whatever happens no transfer to them succeeds, and none is even put on a connection.
* `C117_silent_peer_violated`: C117 is false for peers that accept connections but stay silent: there is no time limit before the session has begun.
* `C117_entries_stay_violated`: C117 is false for what the node remembers: the entry of a connection that came in is never removed, also when the connection is over.
* `C121_direct_violated`: C121 is violated: if the destination is a neighbour, deletion is asked for, but the neighbours that come after it in the table are named as well.
* `C121_ends_violated`: C121 is violated: a request for a bundle without destination node ends the program, if there is a neighbour it could name; the request and all later ones are not answered.
* `C121_flooding_twice_violated`: C121 is violated: with flooding, a neighbour with two of the layers gets the bundle twice.
* `C121_not_accepting_violated`: C121 is violated: the request also names layers that accept no bundles, and the program picks the first layer that the neighbour announces.
* `C122_failed_peer_violated`: C122 is violated: after four failed transfers the node removes a neighbour, but the program is not told: it goes on to name the neighbour for every new bundle.
* `C122_session_violated`: C122 is violated: a neighbour that connects over tcp is in the table, but the program is not told and does not name it, even when it is the destination.
* `C122_http_violated`: C122 is violated: the program is not told when a neighbour is added or deleted over http.
* `C123_loop_violated`: C123 is violated: the service answers itself. One bundle that names the endpoint of the service as its source makes it answer any number of times: all that is ever delivered is that bundle and the answers, which are addressed to the service.
* `C123_anonymous_violated`: C123 is violated for anonymous bundles: the answer is addressed to `dtn:none`.
* `C123_waiting_violated`: C123 is violated for bundles that came while the service was registered and not running: the program subscribes by its service name and is not given what waits at the endpoint.
* `C124_late_violated`: C124 is violated by replies that come after the timeout: the reply to the first ping is reported, and counted, as one to the second.
* `C124_any_bundle_violated`: C124 is violated by bundles that answer nothing: whatever bundle reaches the endpoint of the program, from whomever and with whatever payload, counts as a reply.
* `C124_zero_violated`: C124 is violated for the number zero (and negative numbers, of which -1 is the default): the program does not send none, it goes on for ever.
* `C124_heartbeat_violated`: C124 is violated: the node asks its clients for a sign of life every five seconds, and each such message starts the wait anew.
* `C125_stuck_violated`: C125 fails if one node stops reading: a bundle for another node, sent after enough bundles for the node that does not read, is never delivered, whatever else happens, although everybody is connected and registered.
* `C125_early_violated`: C125 fails for a bundle that reaches the client of a node before the client has queued its registration: everybody is registered in the end, nothing is on its way any more, no write has failed, the sender was told that the bundle was sent, and it was not received.
* `C125_dropped_violated`: C125 fails for announcements if the channel to a client is full: node 0 has announced itself twice, all is at rest, and node 2 has been told once.
* `C126_lost_violated`: C126 fails: if a connection cannot be opened or breaks while a packet is written, the packet is gone.
* `C126_ended_by_peer_violated`: C126 fails: whoever connects from an address that packets are sent to can end the program, by closing that connection between the moment the program has found its own connection and the moment it uses it.
* `C126_json_large_violated`: C126 fails for large packets: a packet of more than 8 MiB is written, and the receiver reads neither it nor anything after it on that connection.
* `C126_json_dropped_violated`: C126 fails: a packet that finds the channel to the client full is dropped by the JSON program, although it arrived.
* `C126_json_foreign_violated`: C126 fails: whoever can connect to the JSON program can have it send the node any packet.
* `C126_json_stops_node_violated`: C126 fails: so a stranger can stop all external convergence layers of the node.
* `C126_json_stays_violated`: C126 fails: the JSON program goes on without its node when the connection to it ends, for ever, and gets no packet any more.
* `C129_stranded_violated`: C129 (lost track). A bundle that is not marked as waiting to be forwarded when the process is stopped is never sent and never given to an application after that, although it may be in the database, unless a bundle with its id is submitted again.
* `C129_janitor_violated`: C129 (sequential processing). Nothing of that holds if bundles are processed one after the other: a bundle that was removed while it was being forwarded is still listed as waiting, and the janitor aborts when the router names a neighbour for it.
* `C129_spray_restart_violated`: C129 is false with spray and wait routing: a bundle that was received before a restart is never handed to a convergence layer after it, for whatever neighbour and however often the router is asked for it, unless it is submitted again.
* `C130_hop_limit_violated`: C130 is false for a hop count of 255 as well: a copy is sent with the count 0.
* `C130_too_old_violated`: C130 is false for old bundles as well: a copy is sent whose age is beyond its lifetime.
* `C131_left_violated`: C131 (not kept) fails if the process is stopped between storing the bundle and looking at its source: the bundle is in the database after the restart, when no task is left, and stays there until its lifetime ends.
* `C15_hop_limit_violated`: C15 is false as it stands: a bundle with limit 255 and count 255 is sent, with count 0.
* `C19_wrong_block_violated`: C19 is false as it stands: with a known block before the unknown one that asks for removal, the known one is removed.
* `C129_stranded_violated`: C129 (lost track). A bundle that is not marked as waiting to be forwarded when the process is stopped is never sent and never given to an application after that, although it may be in the database, unless a bundle with its id is submitted again.
* `C135_uncounted_violated`: C135 (receptions) is false with the persistent store: a bundle whose id is in the database although the bundle itself was removed is refused, and the reception is counted neither as a new bundle nor as a duplicate.
* `C23_unnamed_violated`: C23 is false for a neighbour without a node name: the transfer task panics before it tells the router.
* `C136_stopped_violated`: C136 is violated without parallel processing: once a bundle has been received whose previous node block cannot be read, and the router names a neighbour for it in a run of the janitor, there will never be another run.
* `C137_kept_for_ever_violated`: C137 is violated without parallel processing: once the janitor has stopped, a bundle that is overdue may stay in the store for ever.
* `C139_stopped_violated`: C139 is violated without parallel processing: a bundle that is removed while the janitor is about to forward it stops the janitor for good, if the router names a neighbour for it.
* `C140_stuck_violated`: C140 is violated for bundles with unknown blocks that ask to be removed: the task that has stored such a bundle may abort.
* `C141_session_items_violated`: C141 is false: a SESS_INIT with session extension items is not understood, whatever the items are. (RFC 9174, 4.8: items that are not known and not critical have to be skipped.)
* `C141_session_terminating_violated`: C141 is false: a XFER_REFUSE with the reason code 6 (Session Terminating) is not understood.
* `C141_critical_item_violated`: C141 is false: an extension item of a type that is not known is dropped although it is marked as critical: the segment is read like one without it, so that it cannot be refused. (RFC 9174, 5.2.5: the transfer has to be refused with "Extension Failure".)
* `C141_bundle_id_item_violated`: C141 is false: with the option to refuse bundles the peer already has, the node sends the id of the bundle in an extension item of type 1.
* `C142_addr_violated`: C142 is false for beacons without address, which the documentation allows: they are not understood.
* `C143_services_violated`: C143 is false for packets that name services: the client library of external routers drops them.
* `C143_add_service_violated`: C143 is false for the documented packet that registers a service, of type `AddService`: it is not understood.
* `C143_field_names_violated`: C143 is false for incoming bundles and the state of the services: they are not written with the documented fields `bundle` and `services`.
* `C145_no_beacon_violated`: C145 fails: a node with a service outside the limits, which nothing checks when it is registered, panics instead of generating a beacon.
* `C145_own_beacon_violated`: C145 fails: a beacon of the node itself, which a module heard and passed on, makes the node list itself as a peer.
* `C146_endpoints_violated`: C146 is violated: the endpoints of bundles in the scheme `dtn` are lost.
* `C146_numbers_violated`: C146 is violated: an endpoint in the scheme `dtn` whose node and service are numbers is taken for one in the scheme `ipn`.
* `C146_administrative_violated`: C146 is violated: metadata read from the database never says that a bundle is an administrative record.
* `C146_waiting_violated`: C146 is violated: a bundle that waits to be forwarded is not among the pending ones, those that the janitor tries again.
* `C146_forgotten_violated`: C146 is violated: removing a bundle takes it out of the database with all that is known of it, and the same bundle is taken for a new one when it comes again.
* `C147_destination_as_relay_violated`: C147 is false where the destination is listed among the neighbours that get a copy: it is treated as a relay, and the bundle is kept.
* `C147_relays_dropped_violated`: C147 is false where the destination is listed after the neighbours that get the last copies: these copies are taken off the count and the neighbours are recorded as served, but the answer has the direct delivery only.
* `C147_reports_stay_violated`: C147 is false for the status reports that a node makes: with spray and wait routing, a status report is never handed to a convergence layer, for whatever neighbour, unless a bundle with its id is received or submitted.
* `C148_stopped_violated`: C148 is violated if the process is stopped while a bundle is processed: the bundle is in the database, is for another node, and does not wait for anything.
* `C150_failed_direct_violated`: C150 is false if a transfer to the destination fails: a bundle of another node comes in, the transfer to its destination `n3` fails, and when the node tries again, it hands the bundle to `n4`, which is neither its destination nor one of the budgeted relays: there are none.
* `C152_again_violated`: C152 is false for epidemic routing: `n4` gets a bundle, and gets it again after the node was started again, although no transfer has failed.
* `C152_back_violated`: C152 is false for epidemic routing: after the node was started again, a bundle that came from `n2` is handed back to `n2`.
* `C154_markup_violated`: C154 fails for addresses given by modules of external convergence layers: the address of a neighbour they announce is put on the page as it is, and markup in it becomes part of the page, here a script.
* `C154_last_seen_violated`: C154 fails after the clock was set back: if the last contact with a neighbour is a second ahead of the clock, the page says that it was 2^64 - 1 seconds ago.
* `C154_link_violated`: C154 fails for bundles whose id contains a `#`: following the link asks for something else, and the bundle is not found.
* `C154_module_markup_violated`: C154 fails for every node that a module of an external convergence layer is connected to: one beacon, with any name and any readable services, makes the page of neighbours contain a script, whatever the other neighbours are and however the table is walked.

## Axioms of each theorem

As printed by `#print axioms` for all 640 theorems of MANIFEST.json.

* **propext** (34): C05_sled_lookup_violated, C11_overflow_violated, C43_contact_header_round_trip, C43_contact_header_in_stream_unreadable, C47_out_of_sequence_ends_session, C48_keepalive_negotiated_partial, C48_zero_does_not_disable_violated, C49_address_reuse_violated, C50_partial_write_violated, C58_rest_not_fetched_violated, C58_odd_digest_violated, C60_disabled_family, C60_unparsable_violated, C62_partial_read_dropped_violated, C74_binary_data_stops_all_modules_violated, C75_packet_and_submission_violated, C75_announcement_and_submission_violated, C76_success_without_transfer_violated, C77_unwanted_beacons_violated, C85_parallel, C85_sequential_partial, C85_puller_dies_violated, C85_port, C115_refuses, C115_lost_violated, C115_binary_violated, C119_not_a_bundle, C122_failed_peer_violated, C122_session_violated, C122_http_violated, C124_late_violated, C124_any_bundle_violated, C126_json_dropped_violated, C141_session_terminating_violated
* **propext, Quot.sound** (84): C01_mem_store_is_map, C02_stored_has_metadata, C02_metadata_never_forgotten, C03_remove_leaves_tombstone, C04_sled_no_resubmission, C04_mem_resubmission_violated, C05_sled_is_map_with_tombstones_partial, C06_sled_crash_consistent_partial, C06_sled_interrupted_push_violated, C07_constraint_bits_round_trip, C07_constraint_bits_injective, C12_janitor_forwards_pending_in_order, C12_janitor_idle_without_cla, C28_touch_answer, C30_fresh_announcement_lost_violated, C32_epidemic_no_duplicates, C34_unselected_peer_counts_as_served_violated, C38_sink_nobody, C40_mtcp_frame_is_cbor_byte_string, C44_tcpcl_read_exact_partial, C44_tcpcl_panic_only_in_segments_partial, C46_refusal_reported_successful_violated, C48_timeout_sends_keepalive_partial, C48_first_timeout_terminates_violated, C48_dead_peer_never_detected_violated, C48_answered_once_partial, C50_frame_layout, C51_round_trip, C51_standard_text, C51_text_shape, C51_injective, C58_only_missing, C58_all_missing_partial, C58_early_end, C60_added_partial, C60_normalised, C62_request_during_read_loses_message_violated, C63_mem_listings, C63_sled_listings, C64_mem_add_if_unknown, C64_sled_add_if_unknown_partial, C64_sled_removed_violated, C65_flooding_answers_all, C65_sink_answers_all, C65_epidemic_answers_all_partial, C66_refuses_only_known, C74_bad_beacon_stops_all_modules_violated, C74_second_refusal_stops_all_modules_violated, C75_no_deadlock_without_submissions_partial, C75_no_deadlock_with_submissions_partial, C93_accepted, C96_waits, C97_http_status_violated, C97_dummy_violated, C99_udp_receives, C99_udp_error_violated, C99_mtcp_receives_partial, C100_start_page_violated, C115_result, C115_router_result, C115_address, C115_ipv6_violated, C115_full_violated, C121_answered, C121_known_peers, C121_flooding, C121_direct_violated, C121_ends_violated, C121_flooding_twice_violated, C122_follows_partial, C122_well_told, C122_replies_partial, C124_ends, C124_one_at_a_time, C124_terminates, C124_timeout_partial, C124_zero_violated, C126_lost_violated, C126_ended_by_peer_violated, C126_json_stays_violated, C126_addressed, C141_contact_header_read, C141_session_items_violated, C146_waiting_violated
* **propext, Classical.choice, Quot.sound** (522): C08_sync_deletes_or_persists, C09_processed_once, C09_duplicates_stop, C09_new_bundles_pass, C10_reception_statistics, C11_expiry_sweep_exact_partial, C12_janitor_run, C12_janitor_idle_run, C13_foreign_source, C13_own_source, C13_foreign_always, C14_dispatch, C15_hop_limit_partial, C15_limit_used_up, C15_hop_limit_violated, C16_lifetime, C16_expired_deleted, C17_age_partial, C17_too_old_violated, C18_previous_node, C19_unknown_blocks_partial, C19_deleted, C19_wrong_block_violated, C19_aborts_violated, C19_deleted_always, C20_reports_permitted, C20_one_report_per_event, C21_subject_partial, C21_nothing_else, C21_received_violated, C22_failure_keeps, C22_removed_only_if_asked, C23_transfer_statistics, C23_router_told_partial, C23_unnamed_violated, C24_stays_deleted_partial, C24_stays_deleted_violated, C25_agent_in_order_once, C26_registration_unique, C26_registration_idempotent, C27_fetched_singleton_leaves_store, C27_groups, C28_peer_table_partial, C28_no_sharing_within_scheme_partial, C28_two_nodes_share_entry_violated, C28_find_by_remote, C29_peer_check, C29_timeout_partial, C29_clock_set_back_violated, C30_fourth_failure_drops_partial, C30_count_wraps_violated, C31_first_cla_usable, C31_cla_for_node, C32_epidemic_at_most_once_unless_failed, C33_epidemic_not_back_to_sender, C34_epidemic_serves_new_peers_partial, C35_spray_budget_partial, C35_spray_default_budget_partial, C35_spray_answers, C35_second_arrival_refills_budget_violated, C35_ipn_bundles_never_relayed_violated, C35_any_history_partial, C36_failure_returns_copy_partial, C36_failure_keeps_failed_and_drops_others_violated, C36_wrong_peer_retried_violated, C36_failed_direct_delivery_adds_copy_violated, C36_copies_return_partial, C37_static_first_route, C38_flooding_all_usable, C39_answers_from_own_response, C39_answered_once, C39_request_ends, C39_no_router_no_peers, C39_response_decides_partial, C39_response_lost_violated, C39_overlap_violated, C40_mtcp_round_trip, C40_mtcp_non_bundle_data_rejected, C41_mtcp_chunking_irrelevant, C41_mtcp_stream_delivers_sent_bundles, C42_mtcp_decode_total_and_exact, C43_tcpcl_round_trip, C43_tcpcl_stream_round_trip, C44_extension_length_underflow_violated, C44_huge_segment_violated, C45_tcpcl_segments_every_request, C45_tcpcl_reassembles, C46_tcpcl_success_needs_full_ack_partial, C46_tcpcl_end_to_end, C47_tcpcl_acks_and_transfers, C49_active_module_is_registered_partial, C49_names_unique_partial, C49_name_lengths, C49_configured_layers_stay, C49_gone_after_disconnect_partial, C50_packets_arrive_partial, C50_large_packet_violated, C50_full_writes_arrive_partial, C52_round_trip_partial, C52_flags_tell, C52_period_rounded_violated, C52_layout, C52_version, C52_read_partial, C53_accepted_decodes, C53_allowed_accepted, C53_others_rejected_partial, C53_bad_coordinates_violated, C53_decoding_partial, C53_bad_payload_violated, C54_consecutive_partial, C54_configured_destinations_partial, C54_round_serves_all, C54_default_v6_violated, C54_two_families_violated, C55_beacon_recorded_partial, C55_own_beacon_ignored, C55_garbage_ignored, C55_never_own_peer_partial, C55_own_name_taken_violated, C55_receiver_survives_partial, C55_receiver_stopped_violated, C56_same_bundles_same_digest, C56_stores_agree, C56_different_sets_partial, C56_ids_have_one_colon, C56_different_sets_violated, C56_filtered_digest_violated, C57_control_refused_partial, C57_remote_controls_nothing, C57_host_not_refused, C57_sockets_violated, C58_two_nodes, C59_commands, C59_only_subscribed, C59_end_releases, C59_subscriber_receives_partial, C59_mode, C59_subscribe_answer, C59_takeover_violated, C59_foreign_unsubscribe_violated, C59_reregister_violated, C59_service_unsubscribe_violated, C59_answers, C60_defaults, C61_roundtrip_partial, C61_external, C61_accepted, C61_rejected, C61_default_port_violated, C61_ipv6_violated, C61_slashes_violated, C61_address_kind, C61_bare_colon, C62_tcpcl_stream_cut_irrelevant_partial, C65_spray_answers_all_partial, C65_static_answers_all_partial, C65_null_destination_stops_epidemic_violated, C65_null_destination_stops_spray_violated, C65_bad_routes_file_stops_static_violated, C65_external_takes_requests_partial, C65_dropped_neighbour_stops_external_violated, C67_routes_file, C67_routes_file_unambiguous, C67_printed_route_read_back, C68_removals_justified, C69_delivered_at_most_once, C70_sent_only_where_the_router_said, C71_delivery_statistic, C72_stored_until_removed, C73_second_router_refused, C73_one_router_partial, C73_next_router_accepted_partial, C73_two_routers_violated, C73_slot_lost_violated, C74_well_behaved_modules_are_safe_partial, C76_bundle_reaches_its_module_partial, C76_failure_reported_partial, C76_written_in_order, C77_announcements_reach_modules_partial, C78_registration_answered_partial, C79_static_peer_stays_partial, C79_static_peer_lost_violated, C80_announcing_goes_on_partial, C80_announcing_stops_violated, C81_beacons_describe_the_node_partial, C81_configured_services_violated, C82_neighbour_learns_partial, C83_register, C83_unregister, C83_endpoints_unique, C83_fetch, C83_delete, C83_store_wellformed, C83_download, C83_submit, C83_push, C83_failure_harmless, C83_insert_get, C83_peer_added, C83_peer_removed, C83_routing_command, C83_send_other, C84_answered_partial, C84_answered_violated, C86_in_order, C86_drained, C86_lost_at_end_violated, C86_no_payload_violated, C87_first_sent_partial, C87_waits, C87_second_stuck_violated, C87_service_name_violated, C88_submitted, C88_silent_violated, C89_settings_partial, C89_flags_partial, C89_flags_violated, C89_destinations_violated, C90_node_id, C90_big_number_violated, C91_layers_partial, C91_globals_partial, C91_unknown_violated, C91_cut_violated, C91_second_global_violated, C91_override_violated, C92_services_partial, C92_colon_violated, C93_routing_options, C94_rejected_partial, C94_unknown_violated, C94_file_port_violated, C94_file_span_violated, C95_running, C95_starts, C96_answer_final, C96_work_ends, C96_all_answered, C96_transfers_kept, C97_udp_success, C97_udp_datagrams, C97_ipv6_never_violated, C97_http_success_partial, C97_external_success, C97_passive_layers, C97_mtcp_success, C97_mtcp_delivers_partial, C97_mtcp_overlap_violated, C98_layer_survives_partial, C98_bad_destination_violated, C98_peer_destinations_violated, C99_mtcp_end_to_end_partial, C100_no_deadlock_partial, C100_all_return_partial, C101_queue, C102_delivered_once, C103_fetch_partial, C103_nothing, C103_download, C103_short_violated, C103_file_violated, C104_truth_partial, C104_name_violated, C105_submits_partial, C105_failure_harmless, C105_refused_violated, C105_foreign_violated, C106_message_arrives, C106_busy, C107_one_per_bundle_partial, C107_never_twice, C107_ends, C107_handshake, C107_verbose_violated, C108_filter_partial, C108_listings, C108_json, C108_verbose_violated, C108_text_violated, C108_digest_violated, C108_store, C108_store_told, C108_peers, C108_info, C108_json_values, C108_codes, C109_stored, C109_delivered, C109_waiting, C109_sent, C109_announced, C109_same_id_violated, C110_integrity, C110_on_the_way, networkWitness, C111_hops_partial, C112_handed_on, C112_chain, C112_busy_chain, C113_carried_out, C113_received, C113_submitted, C113_waiting, C114_never_blocked, C114_every_call_ends, C114_no_endless_work, C114_rest, C115_in_order, C115_registers_first, C115_relays, C115_router_relays, C115_serves_until, C115_bad_port_violated, C115_reconnect_violated, C115_early_violated, C116_neighbours, C116_next_round, C116_flooding, C117_answer_final, C117_work_ends, C117_waits_for_peer, C117_over, C117_all_answered, C117_success, C117_once, C117_sent, C117_one_connection, C117_back_channel, C117_survives, C117_ipv6_violated, C117_silent_peer_violated, C117_entries_stay_violated, C117_hangs_up, C117_bounded, C118_received, C118_success, C118_no_failure, C118_answered, C118_complete, C119_undisturbed, C119_no_protocol_error, C119_in_order, C119_settles, C120_carried, C121_at_most_once, C121_not_back, C121_new_peers_partial, C121_same_as_builtin_partial, C121_not_accepting_violated, C123_once_in_order, C123_all_answered, C123_serves, C123_goes_on, C123_answers, C123_loop_violated, C123_anonymous_violated, C123_waiting_violated, C124_matched_partial, C124_heartbeat_violated, C125_in_order, C125_no_gaps_partial, C125_all_delivered_partial, C125_peers, C125_announced_partial, C125_addresses, C125_announced_address, C125_drains_partial, C125_stuck_violated, C125_early_violated, C125_dropped_violated, C126_in_order, C126_sent_in_order_partial, C126_all_sent_partial, C126_on_the_wire, C126_mtcp_readable, C126_json_readable_partial, C126_given_in_order, C126_mtcp_only_bundles, C126_mtcp_across, C126_json_across_partial, C126_keeps_running_partial, C126_json_large_violated, C126_json_foreign_violated, C126_json_stops_node_violated, C126_mtcp_no_gap, C127_received, C127_submitted, C128_kept, C128_dropped, C128_taken_once, C128_silent, C129_carried_out, C129_resumed_partial, C129_stranded_violated, C129_janitor_violated, C129_spray_restart_violated, C130_hop_limit_partial, C130_lifetime, C130_age_partial, C130_previous_node, C130_recipients, C130_reports, C130_removals, C130_deleted_never, C130_deleted_gone_partial, C130_hop_limit_violated, C130_too_old_violated, C131_never, C131_not_kept_partial, C131_left_violated, C132_stored, C132_delivered, C132_waiting, C132_sent, C132_announced, C133_integrity, C133_kept, C133_hops_partial, C133_not_lost, C134_received_partial, C134_submitted_partial, C134_queue, C135_given_once, C135_one_report_per_event, C135_sent_only_where_the_router_said, C135_statistics_partial, C135_router_told_partial, C135_uncounted_violated, C136_never_stops, C136_never_stops_partial, C136_again_and_again, C136_stopped_violated, C137_expired_removed, C137_offered_again, C137_lost_neighbours_dropped, C137_kept_for_ever_violated, C137_other_neighbours_kept, C138_never_blocked, C138_every_call_ends, C138_rest, C139_never_stops, C139_again_and_again, C139_expired_removed, C139_offered_again, C139_lost_neighbours_dropped, C139_stopped_violated, C140_waiting_at_rest_partial, C140_goes_on_waiting_partial, C140_again_and_again_partial, C140_stuck_violated, C141_written, C141_read_partial, C141_critical_item_violated, C141_bundle_id_item_violated, C142_written, C142_read, C142_round_trip, C142_frames, C142_addr_violated, C143_written, C143_read_partial, C143_round_trip_partial, C143_services_violated, C143_add_service_violated, C143_field_names_violated, C144_layout, C144_read, C144_back, C144_distinct, C144_nothing_after, C144_store, C145_received, C145_generated_partial, C145_learned_partial, C145_no_beacon_violated, C145_own_beacon_violated, C146_kept, C146_metadata_partial, C146_no_metadata, C146_listings, C146_endpoints_partial, C146_endpoints_violated, C146_numbers_violated, C146_administrative_violated, C146_forgotten_violated, C147_spends_copies_partial, C147_destination_as_relay_violated, C147_relays_dropped_violated, C147_reports_stay_violated, C148_waiting_at_rest_partial, C148_goes_on_waiting_partial, C148_again_and_again_partial, C148_stopped_violated, C149_copies, C149_got_once, C149_not_back, C150_copies_partial, C150_transfers_partial, C150_others_bundles, C150_failed_direct_violated, C151_sink, C151_flooding, C151_epidemic, C151_spray, C151_static, C152_epidemic_copies_partial, C152_epidemic_got_partial, C152_spray_copies, C152_spray_transfers, C152_again_violated, C152_back_violated, C153_everywhere, C153_spread, C154_bundles, C154_peers_partial, C154_index, C154_download_partial, C154_markup_violated, C154_last_seen_violated, C154_link_violated, C154_module_markup_violated
