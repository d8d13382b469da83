# Formal model of eclipse-ecal/ecal-core in Lean 4

The model lives in `lean/Verif/`. Each area has three kinds of files:

- `Model.lean`: executable definitions, function by function. Each definition cites
  the file and lines in `/repo` it models and names its simplifications.
- `Lemmas.lean` (where needed): helper lemmas.
- `Props.lean`: the property theorems only. Each theorem is named `Cxx_...`, refers to
  the property id in `properties.jsonl` and is followed by an `example` showing that a
  concrete non-trivial case meets its hypotheses. A small independent specification
  sits at the top of the file or in `Spec.lean`.

Paths of the form `core/src/...` in comments are relative to `/repo/ecal/`.

## Conventions

- A theorem with suffix `_partial` proves only part of the English property; the
  comment above says what is missing.
- A theorem with suffix `_violated` proves that the property, stated at full strength,
  is false of the modelled code. It gives a concrete witness.
- Undefined behaviour, thrown exceptions and reads beyond a buffer are separate
  outcomes of the model, never silently totalised.
- Time is a `Nat` handed to every operation that reads the clock in the code.
- Mutex-protected sections are single atomic steps. Interleavings are arbitrary lists
  of such steps.

## Trusted base

- Lean's kernel (Lean 4.33.0) and the axioms `propext`, `Classical.choice`,
  `Quot.sound`. No other axiom, no `sorry`, no `native_decide`, no `bv_decide`.
- The reading of the C++ source: the code is not executed here, so the tie between code
  and model is the citation on every definition.
- Standard containers (`std::map`, `std::list`, `std::vector`, `std::string`), mutexes,
  condition variables, POSIX shared memory and sockets are assumed to follow their
  specifications. Each model states which part of their behaviour it uses.

## Plan per property

- **C01 Recently refreshed entities never expire** — state machine ExpMap (list + map), representation invariant by induction over operations; refinement to an abstract map key -> (value,last access). Public insert of an existing key is modelled too: it violates the property, so the negation is proved with a witness and the positive theorem excludes exactly that call.
- **C02 Silent entities disappear at the next look** — same model as C01; sortedness invariant
- **C03 The shared event ring keeps exactly the newest events** — model with index arithmetic over a function/array of cells; refinement to a bounded FIFO list; UB for capacity 0 is a distinct outcome
- **C04 Registration events reach every other process exactly once** — multi-process state machine on top of C03; induction over the history. The claim without 'strictly increasing' is false: negation with witness (two events in one clock tick).
- **C05 A process does not see its own registration events unless loopback is on** — corollary of the C04 model
- **C06 A subscriber delivers each published sample at most once** — Reader state machine; invariant: every delivered clock of a publisher <= stored last clock. With out-of-order dropping disabled the claim is false: negation with a 65-sample witness plus a partial theorem for the window.
- **C07 Samples of one publisher are delivered in send order** — Reader model, induction over arrivals
- **C08 Drop statistics count the lost messages** — Reader model. The code adds the clock difference, not difference-1: negation with witness; partial: counter grows iff there is a gap, and exact value it does count.
- **C09 Sample-id filter** — Reader model: safety part proved; 'no trace' part violated in the drop counter (witness)
- **C10 Polling receive returns the newest sample once** — Reader model with receive operation; refinement to one-place mailbox
- **C11 A disabled layer never delivers** — Reader model: step is identity for disabled layers; trace equality under erasing these arrivals
- **C12 Transport layer choice** — Writer model; stated with List.find? style independent specification
- **C13 Publisher connection events are paired** — Writer connection state machine, invariant on event trace
- **C14 Subscriber connection events are paired** — Reader connection state machine, invariant on event trace
- **C15 Every send gets its own send counter** — Writer clock model, 64-bit hash arithmetic with BitVec
- **C16 Registration filter** — pure decision function + specification over (host,pid) identity; 'own process' is decided by pid only, so a foreign host's process with the same pid is treated as own: negation with witness
- **C17 Publisher/subscriber matching follows registrations** — gate state machine refined to a per-topic set of subscribers; expiry via ExpMap
- **C18 Shared memory returns exactly what was written** — memory file model over byte lists; refinement to a single blob
- **C19 A crash while writing never yields a torn sample** — byte-wise write steps with crash; recovery resets the size
- **C20 Shared memory observer forwards each sample at most once, in order** — observer state machine over an arbitrary sequence of file contents
- **C21 Shared memory segments live as long as someone uses them** — refcount state machine refined to a multiset of users; the size-check path writes back a stale copy: analysed separately
- **C22 Topic to multicast group mapping stays in the configured network** — BitVec 32 model; last clause needs mask bit 0 clear: negation + partial; textual round-trip of addresses
- **C23 UDP sample framing** — byte-level encode/decode, round-trip under explicit predicate; out-of-bounds reads are a distinct outcome (short datagram / missing terminator) with witness
- **C24 A malformed datagram does not stop reception** — receiver state machine (armed/not armed); violated: negation with witness; partial for histories without damaged datagrams
- **C25 Multicast groups are joined exactly while subscribed** — refcount model refined to multiset of subscriptions
- **C26 TCP reception stays alive while a subscriber of the topic exists** — map keyed by topic without counting: negation with witness, partial for single subscribers per topic
- **C27 Payload sample serialisation round-trips** — nanopb wire-format model (varint, tags, length-delimited, skipping), generic round-trip lemma per field kind, instance theorem
- **C28 Registration sample serialisation round-trips** — as C27; transmitted projection stated explicitly; empty list and re-used target objects: negations
- **C29 Service request/response serialisation round-trips** — as C27
- **C30 Log message serialisation round-trips** — as C27; the all-default message is not decodable: negation
- **C31 TCP payload is 8-byte aligned** — header size arithmetic over the wire model; round-trip of header/payload split; 16-bit truncation as precondition
- **C32 Service messages survive TCP segmentation** — parser over byte stream, incremental-feeding machine, equality with whole-stream parsing
- **C33 Protocol version negotiation** — parametric decision function; client check uses MIN twice: negation for wider ranges, partial for MIN=MAX
- **C34 Every service call is answered exactly once** — client session state machine; invariant: answered + pending = accepted; at quiescence pending = 0
- **C35 Responses are matched to their calls** — client x server x FIFO channel composition; trace refinement
- **C36 The server answers requests one by one in order** — server session state machine, trace invariant
- **C37 Legacy protocol requests are not split** — violated: witness; partial: when each request is completely available before being read and the client waits for the response
- **C38 Blocking service calls return consistent results** — state machine of outstanding calls; invariant over all schedules
- **C39 Method dispatch** — dispatch state machine; a method with description only throws (empty function): distinct outcome, negation + partial
- **C40 A client reconnects to a restarted connection** — client state machine; first part violated (witness: session never recreated, notifications flap); alternation proved
- **C41 Server connection notifications reflect reality** — state machine of sessions; second clause violated by a failing handshake (witness); partial
- **C42 Description queries list exactly the live entities** — gate model over ExpMap refinement; non-numeric entity id makes stoull throw: distinct outcome
- **C43 Best description wins** — fold lemma; for service methods the analogous claim is false (witness of a dominated result), partial
- **C44 Encoding/type combination** — string functions over List Char; exact characterisation of when it round-trips
- **C45 Monitoring lists every entity separately** — key construction by string concatenation is not injective: negations with witnesses; partial under fixed-length ids
- **C46 Monitoring topic filter** — decision proved; re-enabling keeps old patterns: negation
- **C47 Inter-process lock gives mutual exclusion** — interleaving model; proved for disciplined users; destroying a non-holding handle releases a foreign lock: negation
- **C48 Inter-process events are neither lost nor duplicated** — state machine for named (binary) and unnamed (counting) events; counting invariant
- **C49 A shutdown request is seen** — model of named event name table; violated three ways (auto-reset, unlink, early request): negations; partial: first Ok() after the first request made after start returns false
- **C50 Initialize/Finalize nesting** — counter state machine refined to nesting depth
- **C51 Timer callbacks stop with Stop** — two-thread state machine
- **C52 Frequency statistics** — rational-number model
- **C53 Log routing** — decision function and mailbox model
- **C54 Unregistrations are sent before shutdown completes** — thread model; violated (stop wins over trigger): negation with schedule; partial: any cycle completed after the unregister sends it
- **C55 One broken announcer does not disturb the others** — model of the read loop over arbitrary event lists and file tables; violated twice (one unreadable file drops the whole poll; a failed poll repeats the previous one): negations with witnesses, partial theorem when all files can be opened
- **C57 'Connected' is told only to known subscribers** — gate model over arbitrary histories; violated (any subscriber of the host confirms): negation with a two-process history; partial theorem: some connection was announced
- **C58 Samples are routed to the subscribers of their topic** — multimap model, projection theorem to the single subscriber; the result value is violated (last reader only)
- **C56 All layers carry the payload given to Send** — thread model of Write; violated in zero-copy mode (decision taken before the layers are read again): negation with schedule; proved for all interleavings without zero-copy mode and for undisturbed sends
- **C59 End-to-end delivery** — composition of the publisher and subscriber models; sortedness of counters on both sides gives the subsequence
- **C60 Unregistrations are final** — thread model with an invariant over gate, pending list, collected list and sent trace
- **C61 Subscribers may be created from several threads** — statement-level thread model; violated (unprotected map): negation with schedule; proved when creations do not overlap
- **C62 Each received registration is applied once** — composition of the list decoder with the receiving loop; violated (one list object for the whole batch): exact description of what is applied and a witness; proved for single messages
- **C63 A monitoring snapshot survives serialisation** — table-driven codec as for C27-C30, topics routed by direction; empty snapshots are rejected by the decoder (negation)
- **C64 A configuration file sets exactly the settings it names** — node tree model of the documents, all sections function by function, table of documented settings, one theorem over the table; violated for the priority lists, the log levels and drop_out_of_order_messages: negations with witnesses
- **C65 Writing and merging keep the other settings** — merge of node trees by paths, writing and reading of every section; violated for log levels, registration layers, transport layer, drop_out_of_order_messages and empty sections: negations with witnesses, partial theorem for all others
- **C66 A dumped configuration can be loaded** — dump as node tree including the reading of quoted texts; violated for the TCP publisher layer, drop_out_of_order_messages and texts with backslashes; partial theorem for all other settings and plain texts
- **C67 An acknowledged send waits for the processing of that sample** — state machine of the sender phases and one observer per process; invariant over all interleavings; violated after a timeout followed by a registration: a late acknowledgement of the previous sample is taken for the new one (witness)
- **C68 Growing samples keep the connections of a shared memory publisher** — state machine of all memory files of a publisher; invariant for runs without failed creations; violated after one failed creation (silent for ever), after a failed lock (not announced), after failed creation at start (division by zero) and for ended subscriptions (never removed)
- **C69 Address and number settings mean what they say** — regular expressions as deciders, compared with the numeric reading used for multicast; violated by hexadecimal octets, ambiguous octets, leading zeros, the default of a number setting that is not a multiple of its step
- **C70 Background threads run their work one at a time and stop** — state machine of thread and flags; invariants over all interleavings; violated for restarting (the stop flag stays), stopping from within the work (self join) and starting twice (terminate)
- **C71 Splitting and joining texts loses nothing** — recursive functions; round trips; violated for empty parts and for the last empty quoted word
- **C72 Editing texts: replace, trim, centre, escape, compare** — relational specification of replacement with uniqueness, left inverse of escaping; comparison violated (undefined) for characters outside ASCII
- **C73 Cleaned, absolute and relative paths name the same file** — a resolver of paths as specification; cleaning compared with it by invariants on the component stack; violated by './..', by undefined behaviour for 'a/../', by the style being ignored, by the root as working directory, and by relative paths without a proper common prefix
- **C74 Synchronised time comes from the configured source** — state machine with the set of exported symbols; violated in the shipped build (the macro that enables the time gate in the time functions is never defined), by incomplete plug-ins, by changing the mode, by failed initialisation (time 0), by waiting (twice), by dumping the configuration without the component
- **C75 All service clients and servers are managed and stopped together** — state machines for one manager and for the singleton with its io threads; the shutdown is violated when a callback asks for a manager while the shutdown holds the lock, and when a callback shuts down
- **C76 A server serves every client that connects, and none after it was stopped** — state machine of the acceptor; partial without accept errors and without an accepted connection waiting at the stop; violated in both cases
- **C77 Every service call is answered, also calls made by service callbacks** — thread pool with nested blocking calls; decreasing measure and freedom from deadlock; partial for fewer than four unlimited nested calls at a time, full with time limits; violated by four parallel or four nested calls
- **C78 The C interface hands over buffers exactly** — model of buffers with overflow as an outcome and 32 bit lengths; exact copies for non-empty messages below 2 GB; violated for length 0 (overflow), 2 GB (overflow), 4 GB (endless), empty messages, too small buffers, the second server
- **C79 Method callbacks of the C interface are exclusive and are all served** — thread pool with one lock; exclusion by an invariant; progress without nested calls; violated by one nested call
- **C80 A waiting receive returns with the next sample, at its time limit, or when the subscriber ends** — state machine of condition variable, buffer and receivers; invariants for wake-ups and hand-outs; violated by the stop, the destruction and a receive callback
- **C81 Calls of the library from its callbacks do not deadlock** — general model of threads with exclusive and shared locks, freedom from deadlock by lock order, table of the locks of all calls and threads; partial for a table of calls, and the table is maximal: every other call has a deadlock
- **C82 Command lines are taken apart as they were put together** — functions on byte lists; exact condition for the round trip, lossless splitting, agreement of splitting and taking apart; violated by tabs and line feeds
- **C83 The result of starting a process tells whether it was started** — state machine of three processes, FIFO and lock file; invariants; the call always returns; partial with lock file, FIFO, no signals and no slow start; violated in each other case, and waiting never works in ordinary processes
- **C84 Finalising never pulls a part of the library away from a running thread** — programs of joins and destructions against visits of threads; safe exactly if every part is destroyed after the join of all threads that use it; instance for Finalize; partial for joined threads, violated for UDP and TCP payload threads
- **C85 Stopping the service threads ends, and no callback runs afterwards** — state machine of threads, mutex and flag; invariant; the call can return exactly if no callback waits for the manager; violated by callbacks that create services or finalise
- **C86 Service calls made from service callbacks do not deadlock** — lock table with nested callbacks, rank order; no deadlock for the permitted calls; every other call deadlocks with a concrete schedule
- **C87 A publisher may be used while registrations arrive** — lockset analysis proved sound for every schedule; exact table of operations that race; violated (pointers of layers, counters)
- **C88 A subscriber may be used while samples and registrations arrive** — lockset analysis proved sound for every schedule; exact table of operations that race; violated (layer states, drop counter, identifiers)
- **C89 A service client may be used while servers come and go** — lockset analysis proved sound for every schedule; exact table of operations that race; violated (connected servers, names during Finalize, host filter)
- **C90 A service server may be created, used and destroyed while clients connect and call** — lockset analysis proved sound for every schedule; exact table of operations that race; violated (destruction during requests, creation, Finalize)
- **C91 Client notifications go to the callback the application has chosen** — state machine with the outcomes thrown and terminated; exact conditions for both; partial for histories without removals; violated by every removal
- **C92 Calls to a server of the old service protocol are answered once and in order** — state machine with the write handler outside the strand in separate steps; invariants as for version 1; decreasing measure
- **C93 Stopped client sessions let the library shut down** — sessions composed to a system with a manager; partial for sessions stopped after their set-up; violated for a client destroyed while it connects, for every continuation without the server
- **C94 A registered publisher on the same host is observed** — step machine of callers, observer threads, cleanup thread and stopper; invariant; observer alive until expiry; violated for a request that finds a timed out observer, a leaving observer, and for a request overtaken by the stop
- **C95 A service call reaches every living server of the service** — exact characterisation of the targets over the history of registrations (refinement of the expiration map of C01); violated for registration intervals above 5000 ms and for vanished servers
- **C96 The documented search order decides which configuration file is used** — pure functions over an abstract file system; equality with the first existing candidate; violated for full paths below a search directory, for the reported file and for missing directories
- **C97 A filter for message elements accepts what was inserted** — names as lists of parts; exact set of the insertions; erase over the order of the strings; violated for nested arrays, prefixes and several indices
- **C98 Walking through a message reports the wanted values, each once and under its own name** — mutual structural induction over messages; equality with the filtered list of leaves; stack machine for the nesting; composition with C97
- **C99 The description a publisher sends is enough to decode its messages** — recursive function with fuel, shown to return; invariants over the recursion; equality with the transitive closure and order; receiver as a pool; violated for unnoticed imports, equal names, nested types and running time
- **C100 A dynamic subscriber delivers the messages of its publisher or reports an error** — state machine over an abstract decoder; partial for an unchanged type and well-formed messages; violated for restarts with another type, malformed data, unusable descriptions with JSON, and moves
- **C101 A typed subscriber receives the messages a typed publisher sent** — step machine of one send with connecting subscribers over an abstract codec; invariant; violated for a subscriber connecting inside a send, for failing writers and for the returned number
- **C102 A sample written directly into shared memory has the content that was meant** — memory files with content and initialised flag; several files and payloads without partial write: for all sizes; one file: invariant for equal sizes; violated for growing payloads, failing writers and other content in between
- **C103 Typed subscribers can be moved and destroyed while samples arrive** — programs of steps of the application thread interleaved with receiving threads; invariant over the rest of the program; violated for moves (race, lost samples), empty callbacks, the older class and self assignment
- **C104 Over the network a subscriber gets the messages of a publisher unchanged, in order and at most once** — composition of C23, C27, C31 and C59 over byte sequences; liveness violated by one damaged datagram
- **C105 Over shared memory a subscriber gets the messages of a publisher unchanged, in order and at most once** — byte image of the header; invariant that every file holds a complete sample of the publisher; composition with C18 and C59
- **C106 Publishers and subscribers of different processes find each other and forget each other** — composition of provider, serialisation, framing, filter and gates for any number of processes; invariant on the origin of every datagram; learning and forgetting via the histories of the gates; violated by datagrams that arrive late
- **C107 A service call executes its own request at most once and returns that execution's result** — composition of C29, C32, C34, C35 and C36 into one machine of bytes; invariant relating calls, requests, executions and responses by index; absence of deadlock at rest; violated where a method that is only described is requested
- **C108 Over shared memory the processes of a host learn of each other's publishers and subscribers** — refinement of the composed accesses to the network machine of C106; delivery by invariants on files, pending events and the poll; violated: lists overwritten before they are read, one missing file drops the lists of all, a failed open is never repeated
- **C109 A client finds the servers of its service on the network** — composition of registration thread, serialisation, framing, filter and C95 for any number of processes; invariant on the origin of every datagram; violated: host groups are not used for servers, a server lacking one of two ports is hidden, destroyed servers are called on
- **C110 Publishers, subscribers, servers and clients can be kept over any number of initialisations and finalisations** — state machine of library, gates, memory and objects on top of C50's; invariant that the gates hold exactly the running implementations of existing objects; violated: objects that survive a finalisation stay dead while Send reports success, creation without the component is undefined
- **C111 From discovery to delivery: who finds a subscriber serves it** — composition of C106, C12, C59 and C104 for any number of processes; invariants on publishers, copies and subscribers along the history; the subscriber's peer is shown never to be dropped; violated: publisher and subscriber without a common layer report to be connected
- **C112 A client tries all hosts it knows for a server, in order, and errors have a cause** — projection of the session onto its set-up, which walks the list; invariant that without a failing operation no error state is reached; violated: a host that does not complete the handshake ends the session although other hosts are left
- **C113 A monitoring application sees the publishers and subscribers of the network** — composition of C106's network with the monitoring tables of C45; exact characterisation of a listing by the last event of each key; violated: two publishers with the same concatenation of topic name and id hide each other, a late announcement brings a destroyed publisher back
- **C114 Registration callbacks hear of every registration once, and of none after they were removed** — state machine with the copy the receiving thread makes; the calls equal a list read off the history; races by the lock sets of C88, deadlocks by the lock order of C81; violated: called after removal, data race between setting and arrival, Finalize in a callback never returns
- **C115 Processes that share a memory segment neither crash each other nor keep what they have left** — kernel model with files, names, descriptors and mappings checked by pages, one step per system call, signals as outcome; inductive invariant under equal lengths and opening after creation; violated otherwise: smaller queue size kills both processes, opening too early, failing mmap and ftruncate, descriptor 0, late reset, stuck reader, mutex failure leaks
- **C116 A typed call returns the message the typed method made from the request message** — typed layer on top of the connection of C107 with an abstract codec, invariant relating executions and invocations; separate machine for the objects with base and derived parts and callbacks in three steps, inductive invariant for histories without overlap; violated: request during Create, Destroy and deletion racing with requests, destroyed server still answers, second Create, lost responses, deprecated calls
- **C117 Processes that open an event of the same name share one event** — kernel with names and objects, one step per system call; refinement of one flag per name for histories without overlapping openings, with owners closing last and without failing calls; violated otherwise: simultaneous openers, too early openers, owner closing first, two owners, failing mmap and ftruncate, names left behind, stale signals
- **C118 A request to shut down reaches exactly the processes it is meant for** — product of the machine of C49 over process ids, projection lemma, selection functions; equivalence between asked, meant and told for exact lists; violated for stale lists, unlisted processes, equal host names, unit names of tools
- **C119 No received bytes make the decoder read outside of the message** — stream machine over a memory with position and bytes left, reading beyond the memory as ub, running out of fuel as stuck; refinement of the list semantics of the serialisation claims by varint, field, sub-stream and message lemmas; tables of all messages
- **C120 The encoder writes exactly the message, inside of the buffer it was given** — output streams with a memory, a position, a limit and 64-bit wrapping counters, writing beyond the memory as ub; every encoding function equals emitting one byte string at once (composition law), by induction over tables and lists; tables of all messages; round trip with the decoder of C119
- **C121 Process-wide functions may be used from several threads** — Access sequences with locks per operation as in C87-C90; a table of rival operations, no race for threads without rivals (any number, any interleaving), a race for every pair of rivals; witnesses for the violations.
- **C122 A call is executed by a server of the service it was made for, from discovery to the result** — Composition of the models of C109 and C107: one connection per session, whose peer is a parameter that must listen at the address of the session when it connects; invariant: a used connection was connected to such a server; witness of a port used again by a server of another service.
- **C123 Starting a program in a terminal window reports what happened** — Four processes as labelled transition system, like C83; invariants of all runs; ranking function for returning.
- **C124 The C interface passes on exactly what a C program gives it** — Model `Verif/Capi/Handle.lean`: memory of the caller as lists of bytes, objects by address, C++ answers as a parameter. Specification of what arguments mean over the memory only, of which handle is valid over the calls and results only. Induction over the sequence of calls.
- **C125 Publishers are told apart** — Publishers with clock readings as parameter, composed with the sample hash and counter of C15 and the subscriber of C06-C09, the connection tables of C13-C17 and the monitoring of C45; induction over the history; pigeonhole bound for shared identities; witnesses for the violations.
- **C126 Log messages arrive as they were logged** — Composition of the serialisation of C30, the framing of C23/C24 and the copying of C78; induction over the history of the collecting process; the line format as an injective function of the messages for texts without line feed and zero byte; witnesses for the violations.
- **C127 C programs get the type descriptions that were announced** — Composition of the store of C42, the choice of C43 and the copying of C78; the specification looks at the history of registrations only; witness of two calls with an unregistration between them.
- **C128 Objects in shared memory have names of their own** — Names as texts; injectivity by splitting at the last underscore; refinement of a directory with inodes by one file per publisher, under the hypothesis that no number is drawn twice; witnesses for equal numbers, left over files and unlucky domain names.
- **C129 A process has an identity of its own, whatever started it** — Labelled transition system of processes with number and statics; invariant: statics are unset or the own number, and set only if the process has asked since its last exec; composition with the filter of C05; witnesses for forks after the id was read, reuse of the number and renaming.
- **C130 A process is shown as it is** — Model `Verif/Proc/Self.lean`: the variables of the process, the answers of the system as a parameter of every step. Composition with the serialisation of C28 and the command lines of C82. Invariants over the history; a reader of command lines that is not a part of the library; witnesses for missing names, left over names and texts, deleted programs and components that are not told.
- **C131 A publisher or subscriber is shown as it is** — Verif/Mon/Topic.lean adds to the publisher of C12 and the subscriber of C06-C11 what they keep for the monitoring, their registration and the entry made of it; induction over the history backwards, composed with the serialisation of C28, the counters of C10 and C08
- **C132 A server or client is shown with its methods as they are** — Verif/Mon/Svc.lean: method maps of server and client, registrations and entries; induction over the history backwards per method, composed with the serialisation of C28; witnesses for the version, servers without port, counts lost by a removal, methods without callback and calls counted once per server
- **C133 A dynamic publisher announces and sends its message, and lives as long as its object** — Verif/Msg/DynPub.lean: objects, registered writers, messages; ownership invariant over all histories, frame lemma for objects not touched, simulation proof with renamed objects for the moves; witnesses for sends of moved objects, null messages, assignment to itself and types set by the application
- **C134 Overviews, name lists and single queries agree** — Verif/Desc/Overview.lean: the containers with their iteration order on top of the store of C42; both algorithms shown to give the first of the best elements of their list, the lists shown to have the same elements and the best ones ordered by id; witness with two servers for methods, where the two qualities are compared with 'or'
- **C135 UDP samples reach the processes they are meant for** — Verif/Udp/Reach.lean: sender attributes, socket options and listeners as chosen by the code, delivery as the trusted network; exact conditions of delivery; witnesses for loopback with the network disabled, for the groups of other processes of the host and for overlapping ports

## Disagreements found

Each entry is a theorem about the modelled code that contradicts the English property at
full strength, with a concrete witness. The text is the comment above the theorem.

### C01

- `C01_violated_by_reinsert` (Verif/ExpMap/Props.lean): C01 at full strength (including the public `insert` of a key that is already present) is false of the code: `insert` of a present key leaves a second list node behind; when this node expires the key is dropped although it was refreshed a moment ago.

### C02

- `C02_violated_by_reinsert` (Verif/ExpMap/Props.lean): With the public `insert` of a present key a key can be reported twice.

### C04

- `C04_violated_same_tick` (Verif/Bcast/Props.lean): C04 without "send times strictly increase" is false: two events in the same clock tick, the poll between them makes the second one invisible for ever.

### C06

- `C06_violated_late_copy` (Verif/Reader/Props.lean): **C06 violated.** With out-of-order dropping off a copy of a sample that arrives more than 64 samples later is delivered a second time.

### C08

- `C08_violated_off_by_one` (Verif/Reader/Props.lean): **C08 violated.** One sample is lost (counter 2) but the drop counter says two.

### C09

- `C09_violated_filtered_reported_as_dropped` (Verif/Reader/Props.lean): **C09 violated (statistics).** Nothing was lost, but the sample filtered out by its id is reported as dropped: the drop counter is two and a `dropped` event is fired.
- `C09_violated_hash_collision` (Verif/Reader/Props.lean): **C09 violated (hash collision).** If a filtered sample of one publisher happens to have the hash of a wanted sample of another publisher, the wanted one is lost.

### C13

- `C13_violated_disconnected_with_peer` (Verif/Conn/Props.lean): **C13 violated (stale 'disconnected').** The receiver thread notifies 'connected' before it enters the peer into the map. A registration cycle in between finds the map empty and notifies 'disconnected'; the peer is there, but the application was told it is gone.
- `C13_violated_order_by_race` (Verif/Conn/Props.lean): **C13 violated (order).** Already one receiver thread and the registration thread can produce 'disconnected' before the first 'connected', and 'connected' twice in a row.

### C14

- `C14_violated_disconnected_with_peer` (Verif/Conn/Props.lean): **C14 violated**, see `C13_violated_disconnected_with_peer`.

### C16

- `C16_violated_same_pid_on_other_host` (Verif/Registration/ApplierProps.lean): **C16 violated (process id of another host).** Two hosts of one host group: a publisher registration of a process on the other host that happens to have the same process id is taken for the own one and dropped (loopback off), although it is from the own host group and from another process.
- `C16_violated_service_of_own_group_dropped` (Verif/Registration/ApplierProps.lean): **C16 violated (services of the own host group).** With a configured host group name, registrations of services on the own host are not recognised as local (they do not carry the host group): they are dropped when network mode is off.
- `C16_violated_own_service_without_loopback` (Verif/Registration/ApplierProps.lean): **C16 violated (own services without loopback).** For the same reason the own services are taken over in network mode although loopback is off.

### C18

- `C18_violated_failed_payload_is_published` (Verif/Shm/MemFileProps.lean): **C18 is violated by failing payload writers**: the write is reported as successful and the half-written content is what readers get.
- `C18_violated_oversize_clobbers_header` (Verif/Shm/MemFileProps.lean): **C18 is violated by an oversized `Write` without the preceding size check**: the write fails but the header in the segment has already been replaced – it announces a content that is not there. (`CDataWriterSHM` always checks the size first, `C18_history`.)

### C19

- `C19_violated_foreign_destroy` (Verif/Shm/TornProps.lean): **C19 (and C18, C47) are violated with the plain lock**, which is the one used for topic data: a subscriber that destroys its handle while a sample is being written releases the writer's lock, and another subscriber reads a mixture – here without any crash.
- `C19_violated_crash_then_destroy` (Verif/Shm/TornProps.lean): The same after a crash of the writer.
- `C19_violated_plain_lock_stuck` (Verif/Shm/TornProps.lean): **Recovery is violated with the plain lock**: after a crash in a write, no reader and no writer gets access any more, for ever, unless somebody destroys a handle.

### C20

- `C20_violated_incomplete_forwards_stale` (Verif/Shm/ObserverProps.lean): **Violated if the segment is incomplete** (possible only after C18/C19 have been violated, e.g. by a crash): the failed copy is ignored and the bytes of the *previous* sample are forwarded under the new counter.
- `C20_violated_zero_copy_beyond` (Verif/Shm/ObserverProps.lean): The zero-copy path checks the content length without the header: it forwards bytes beyond the current content.
- `C20_violated_restart_duplicates` (Verif/Shm/ObserverProps.lean): **C20 is violated across restarts** of the observer thread: it forgets the counter, so the sample that is still in the segment is forwarded a second time.

### C21

- `C21_violated_remap_dangles` (Verif/Shm/DbProps.lean): **C21 is violated when a second user needs a larger mapping**: the segment is mapped anew and the first user's pointer dangles.
- `C21_violated_stale_count` (Verif/Shm/DbProps.lean): **C21 is violated by the size check**: it writes back a private copy with an old use count, so that a close unmaps the segment under a remaining user.
- `C21_violated_leak` (Verif/Shm/DbProps.lean): … or that the segment is never unmapped nor removed although its creator asked for it: the user's size check happens after the creator's close.

### C22

- `C22_violated_full_mask` (Verif/Udp/McastProps.lean): **C22 (violated).** With a mask that covers the last bit topics do land on the registration address: with 255.255.255.255 every topic does, and with 255.255.255.1 and base 239.0.0.0 every topic whose hash is 0 on the free bits.
- `C22_violated_odd_mask` (Verif/Udp/McastProps.lean): **C22, violation**: a mask that is not contiguous but covers the last bit maps topics to the base address as well.

### C23

- `C23_violated_overread` (Verif/Udp/FrameProps.lean): **C23 (violated).** A one-byte datagram, and a datagram whose name is not terminated, make the receiver read memory outside the datagram.
- `C23_violated_long_name` (Verif/Udp/FrameProps.lean): **C23 (violated).** A topic name of 65535 bytes is sent with name size 0: the receiver takes the name from the payload bytes.
- `C23_violated_zero_in_name` (Verif/Udp/FrameProps.lean): **C23 (violated).** A topic name containing a zero byte arrives truncated.

### C24

- `C24_violated_damaged` (Verif/Udp/FrameProps.lean): **C24 (violated).** After one damaged datagram nothing is received any more, whatever arrives later.
- `C24_violated_witness` (Verif/Udp/FrameProps.lean): A damaged datagram exists: four bytes suffice; and the sender's datagram that follows is lost.

### C26

- `C26_violated` (Verif/Udp/GroupsProps.lean): **C26 (violated).** Two subscribers of a topic in one process; destroying one ends TCP reception for the other, and no later announcement of the publisher repairs it.

### C27

- `C27_violated_reuse` (Verif/Wire/PayloadProps.lean): **C27 (reused target).** Deserialising into a sample used before keeps old strings where the new sample has empty ones (the TCP reader reuses its header object).

### C28

- `C28_violated_process_entity_id` (Verif/Wire/RegistrationProps.lean): The entity id of a process registration is not transmitted.
- `C28_violated_osname` (Verif/Wire/RegistrationProps.lean): The operating system name of the host is never transmitted.
- `C28_violated_reuse` (Verif/Wire/RegistrationProps.lean): **C28 (reused target).** Decoding into a used sample object appends to its lists and keeps old strings.
- `C28_violated_empty_list` (Verif/Wire/RegistrationProps.lean): The empty list cannot be read back (the sender therefore never writes one).

### C30

- `C30_violated_default` (Verif/Wire/MessageProps.lean): **C30 (violated for the all-default message).** The message with no field set is serialised to nothing and rejected by the receiver.
- `C30_violated_empty_list` (Verif/Wire/MessageProps.lean): **C30 (violated for the empty list).** The empty list is rejected by the reader.

### C31

- `C31_violated_large` (Verif/Wire/PayloadProps.lean): **C31 (violated for large payloads).** From 2 GiB on the 32-bit size in the header no longer gives the payload length: the receiver reads beyond the message.
- `C31_violated_overread` (Verif/Wire/PayloadProps.lean): **C31 (damaged messages).** A message with a false header size makes the receiver read beyond the message.

### C32

- `C32_violated_short_header` (Verif/Service/FrameProps.lean): **C32 (declared header shorter than 16 bytes).** Such a header is read as 16 bytes, so the messages of a peer with a shorter header would be cut wrongly.

### C33

- `C33_violated_wide_range` (Verif/Service/HandshakeProps.lean): **C33 is violated for wider ranges**: both peers support versions 1 and 2. The server accepts version 2 and regards the connection as established, the client rejects the answer because it compares with its minimum twice (`client_session_impl_v1.cpp` L313-314).
- `C33_violated_whenever_above_minimum` (Verif/Service/HandshakeProps.lean): In general: whenever the highest common version is above the client's minimum the client refuses to connect although the server accepts.

### C37

- `C37_violated_segmentation` (Verif/Service/ServerSessionProps.lean): **C37 is violated.** A request of two bytes that arrives in two TCP segments reaches the service callback as two requests.
- `C37_violated_any_split` (Verif/Service/ServerSessionProps.lean): In general: any request can be split at any point.
- `C37_violated_merge` (Verif/Service/ServerSessionProps.lean): Two requests that are in the socket together are merged into one.

### C38

- `C38_violated_stopped_is_timeout` (Verif/Service/BlockingProps.lean): A finding: a call refused because its session is stopped is reported to the application as a timeout event although nothing was waited for.

### C39

- `C39_violated_described_only` (Verif/Service/DispatchProps.lean): **C39 is violated for described-only methods.** A method that has a description but no callback (`AddDescription` without `AddMethodCallback`) is found in the map; calling it invokes an empty function: the server process gets an exception in its IO thread instead of answering `failed`.

### C40

- `C40_violated_never_reconnects` (Verif/Service/ClientConnProps.lean): **C40 is violated**, in every history: once the connection to a server has failed, it stays failed whatever the server announces and however many cycles pass.
- `C40_violated_never_reconnects_reachable` (Verif/Service/ClientConnProps.lean): … and such a state is reached by: announcement, cycle, connected, failed.
- `C40_violated_flapping` (Verif/Service/ClientConnProps.lean): **C40 is violated (flapping).** While the server keeps announcing itself, each further cycle reports a disconnect and each announcement a new connect, for ever, although nothing changes.
- `C40_violated_connected_without_session` (Verif/Service/ClientConnProps.lean): A connection can be reported before – and without – any TCP connection: the notification follows the announcement, not the connection.
- `C40_violated_race` (Verif/Service/ClientConnProps.lean): A finding: the registration thread erases from the connected map without holding its lock, while the receive thread inserts and the application reads under that lock.
- `C40_violated_connect_after_stop` (Verif/Service/ClientSessionProps.lean): A finding: `stop()` closes the socket, but while the host name is still being resolved there is no connection yet; the pending set-up goes on, connects and reports `connected` although the session was stopped before. (No call is accepted any more, and nobody closes the socket again.)

### C41

- `C41_violated_lost_disconnect` (Verif/Service/ServerEventsProps.lean): **C41 is violated (lost `disconnected`).** Client 1 is connected, client 2 is still in the handshake. Client 1 leaves: no notification, because the handshaking session counts as a connection. Client 2's handshake fails: no event at all. All clients are gone, the last notification is `connected`.
- `C41_violated_next_client_silent` (Verif/Service/ServerEventsProps.lean): … and the next client is not announced either.
- `C41_violated_double_disconnect` (Verif/Service/ServerEventsProps.lean): **C41 is violated (wrong type under concurrency).** Two clients leave at the same time while a third one connects: the second handler sees the new session, takes the change for its own event and reports `disconnected` twice; the new connection is never announced.
- `C41_violated_two_protocols` (Verif/Service/ServerEventsProps.lean): **C41 is violated (two protocol versions).** A version 0 and a version 1 client are announced with two `connected` in a row.
- `C41_violated_removed_callback` (Verif/Service/ServerEventsProps.lean): **C41 (removed callback).** After `RemEventCallback` the next event calls an empty function: an exception in the IO thread.

### C43

- `C43_violated_services` (Verif/Desc/Quality.lean): **C43 (violated).** `GetServices` can report, for a method offered by three servers, an entry although another server offers a strictly better request description and an equal response description. The qualities are those of server registrations (type name and descriptor for the request; type name only for the response; type name only for the request).
- `C43_violated_services_api` (Verif/Desc/Quality.lean): **C43 (violated).** The same through the API: three server registrations, then `GetServices`.

### C44

- `C44_violated_by_colon_in_type` (Verif/Util/TypeName.lean): **C44 (violated in general).** A type containing a colon with an empty encoding is split into something else.

### C45

- `C45_violated_two_hosts` (Verif/Mon/MonitorProps.lean): **C45, violation**: the host is not part of the key: equal process names with equal process ids on two hosts (e.g. process 1 in two containers) share one entry.
- `C45_violated_unregister` (Verif/Mon/MonitorProps.lean): **C45, violation**: leaving of `p1`/2 removes the entry of the running process `p`/12.
- `C45_violated_digits` (Verif/Mon/MonitorProps.lean): **C45, violation**: process `p1` with id 2 and process `p` with id 12 share one entry.

### C46

- `C46_violated_old_patterns_kept` (Verif/Mon/FilterProps.lean): **C46, violation**: switching on again adds the new patterns to the old ones: topic `a` stays hidden although the exclusion text no longer mentions it.
- `C46_violated_case_merge` (Verif/Mon/FilterProps.lean): **C46, violation**: patterns that differ only in the case of a letter are merged, although case is significant in escapes: of `\d;\D` only `\d` is kept and topic `x` is not excluded.
- `C46_violated_malformed` (Verif/Mon/FilterProps.lean): **C46, violation**: one malformed pattern makes every topic registration (that no earlier pattern decides) end with an exception.

### C47

- `C47_violated_foreign_destroy` (Verif/Sync/MutexProps.lean): **C47, violation (plain lock)**: destroying a handle releases the lock another handle holds.
- `C47_violated_foreign_unlock` (Verif/Sync/MutexProps.lean): **C47, violation (plain lock)**: unlocking without holding releases the lock of the holder.
- `C47_violated_unlink` (Verif/Sync/MutexProps.lean): **C47, violation (both locks)**: the owner removes the name while another user holds the lock; the next user creates a second object under the same name and holds "the same lock" as well.
- `C47_violated_init_race` (Verif/Sync/MutexProps.lean): **C47, violation (both locks)**: a user opens and locks the object between its creation and its initialisation; the initialisation resets the lock and a second user gets it.
- `C47_violated` (Verif/Sync/MutexProps.lean): **C47, violation** of the full statement: two processes can hold the lock at the same time, for the plain and for the recoverable lock.
- `C47_violated_dead_holder_blocks` (Verif/Sync/MutexProps.lean): **C47, violation (plain lock)**: once a holder has died, no later attempt to lock succeeds, however long the others try (as long as nobody releases a lock it does not hold).

### C48

- `C48_violated_sets_merge` (Verif/Sync/EventProps.lean): **C48, violation**: two sets before the next wait release only one wait.
- `C48_violated` (Verif/Sync/EventProps.lean): **C48, violation** of the full statement: not every set releases a waiter (two sets release one).
- `C48_violated_init_race` (Verif/Sync/EventProps.lean): **C48, violation**: a set issued before the creating process has finished the initialisation is lost.
- `C48_violated_dead_process_blocks` (Verif/Sync/EventProps.lean): **C48, violation**: after a process died inside a critical section of the event no wait ever returns, not even one with a time-out or with time-out 0.
- `C48_violated_counter_wraps` (Verif/Sync/EventProps.lean): **C48, violation** (unnamed event): 2^32 sets without a wait leave the event unset.

### C49

- `C49_violated_ok_again` (Verif/Sync/ShutdownProps.lean): **C49, violation**: `Ok()` returns false once and true again afterwards.
- `C49_violated_early_request` (Verif/Sync/ShutdownProps.lean): **C49, violation**: a request issued before the target's first `Ok()` is lost.
- `C49_violated_second_request` (Verif/Sync/ShutdownProps.lean): **C49, violation**: a second request is lost.
- `C49_violated_deaf_for_ever` (Verif/Sync/ShutdownProps.lean): **C49, violation (general)**: once a request has been served, no later request, however many and in whatever interleaving, is ever seen: all further `Ok()` return true.

### C50

- `C50_violated_early_finalize` (Verif/Life/InitProps.lean): **C50, violation**: a `Finalize` before the first `Initialize` is counted, so that afterwards two `Initialize` and one `Finalize` leave eCAL not initialised.
- `C50_violated_extra_finalize` (Verif/Life/InitProps.lean): The same after any finalised phase, as soon as the application constructs a configuration object and finalises once too often.
- `C50_violated_reinitialise_with_same_configuration` (Verif/Life/InitProps.lean): **C50, violation**: initialising again with the configuration object of the first initialisation dereferences a null pointer.
- `C50_violated_monitoring_leak` (Verif/Life/InitProps.lean): **C50, violation**: `Util::ShutdownProcess(name)` leaves eCAL initialised although `Finalize` was called as often as `Initialize`.
- `C50_violated_ok_without_initialise` (Verif/Life/InitProps.lean): **C50, violation**: `Ok()` is true before eCAL was ever initialised.
- `C50_violated_component_sets` (Verif/Life/InitProps.lean): **C50, violation**: asking for two components at once never succeeds.

### C51

- `C51_violated_stop_in_callback` (Verif/Time/TimerProps.lean): **C51, violation**: calling `Stop` from the callback of a running timer does not stop the timer but terminates the process.
- `C51_violated_stop_in_first_callback_ignored` (Verif/Time/TimerProps.lean): **C51, violation**: in the window before `Start` has set its flag the same call is ignored and the timer goes on.

### C52

- `C52_violated_overflow` (Verif/Util/FreqProps.lean): **C52, violation**: two ticks with the same time stamp, or only 400 ns apart, between two queries: the conversion of the frequency is undefined.
- `C52_violated_first_query_after_silence` (Verif/Util/FreqProps.lean): **C52, violation**: the first query after a silence of eleven days still reports 100 Hz.
- `C52_violated` (Verif/Util/FreqProps.lean): The full statement about silence fails.

### C53

- `C53_violated_missing_directory` (Verif/Mon/LogProps.lean): **C53, violation**: if the log directory is missing (and the file mask is not empty) nothing is logged anywhere, not even to the console or the network.
- `C53_violated_second_start` (Verif/Mon/LogProps.lean): **C53, violation**: initialising a second time within the same second erases the messages logged so far; in a later second they are split over two files.

### C54

- `C54_violated_stop_wins` (Verif/Registration/ProviderProps.lean): **C54 violated.** An entity is unregistered, then the process stops its registration. The registration thread sees the stop flag first: neither the unregistration of the entity nor that of the process is ever sent.

### C55

- `C55_violated_one_bad_file_drops_all` (Verif/Bcast/Props.lean): C55 at full strength is false: process 2 announces a payload file that is already gone; the update of process 1 in the same poll is thrown away with it.
- `C55_violated_failed_poll_repeats` (Verif/Bcast/Props.lean): C55 at full strength is false in a second way: when the access to the broadcast file fails (lock timeout or recovered file) the previous event list is processed again, and the same update is delivered a second time.

### C56

- `C56_violated_layer_started_during_send` (Verif/Writer/Props.lean): **C56 violated.** Zero-copy mode, shared memory subscriber only. While a send is in progress a remote subscriber appears and the registration thread starts the UDP layer: the UDP layer is given the (never filled) payload buffer with the full payload length, that is, memory beyond the buffer.

### C57

- `C57_violated_foreign_confirmation` (Verif/Gate/Props.lean): **C57 violated.** Publisher P and subscribers X, Y of topic "t" run on one host. P has received X's registration only and announces one local connection; Y's process takes that announcement as confirmation and tells Y's application 'connected', although P does not know Y.

### C58

- `C58_violated_result_of_last_reader` (Verif/Gate/Props.lean): **C58 violated (return value).** The return value says whether the *last* subscriber of the topic took the sample, not whether any did.

### C61

- `C61_violated` (Verif/Udp/GroupsProps.lean): **C61 (violated).** Two threads create subscribers of one topic at the same time; both calls complete, yet destroying the first subscriber leaves the multicast group although the second one is alive.

### C62

- `C62_violated` (Verif/Wire/RegistrationProps.lean): **C62 (violated).** Two messages in one batch: the registration of the first is applied again after its own unregistration in between.

### C63

- `C63_violated_empty` (Verif/Wire/MonitoringProps.lean): **C63 (violated: empty snapshot).** A snapshot without entities serialises to nothing, and nothing is rejected by the decoder.
- `C63_violated_direction` (Verif/Wire/MonitoringProps.lean): **C63 (violated: direction).** A topic listed as publisher whose direction text differs disappears.

### C64

- `C64_violated_priority` (Verif/Config/YamlProps.lean): C64 is violated for the priority lists: a file that only switches a layer on leaves the publisher without any layer in its priority lists.
- `C64_violated_level` (Verif/Config/YamlProps.lean): C64 is violated for the log levels: a file that only enables a sink silences it.
- `C64_violated_drop` (Verif/Config/YamlProps.lean): C64 is violated for `drop_out_of_order_messages`: the documented name is never read.

### C65

- `C65_violated_levels` (Verif/Config/YamlProps.lean): C65 is violated by the log levels: merging an empty file turns every non-empty filter into "all".
- `C65_violated_registration_layer` (Verif/Config/YamlProps.lean): C65 is violated by the registration layers: merging an empty file resets them.
- `C65_violated_drop` (Verif/Config/YamlProps.lean): C65 is violated by `drop_out_of_order_messages`: merging an empty file resets it.
- `C65_violated_transport` (Verif/Config/YamlProps.lean): C65 is violated by the `transport_layer` section: a file naming one of its settings resets the others, and the section is missing in written files.
- `C65_violated_empty_section` (Verif/Config/YamlProps.lean): C65 is violated by empty sections: a file with an empty section resets that section.

### C66

- `C66_violated_tcp` (Verif/Config/YamlProps.lean): C66 is violated by `publisher.layer.tcp.enable`: the dump contains the setting of the shared memory layer.
- `C66_violated_drop` (Verif/Config/YamlProps.lean): C66 is violated by `drop_out_of_order_messages`.
- `C66_violated_backslash` (Verif/Config/YamlProps.lean): C66 is violated by texts with backslashes, which are common in the regular expressions of the monitoring filters: the dump is not a well formed document, or it is read as another text.

### C67

- `C67_violated_late_ack` (Verif/Shm/AckProps.lean): C67 is violated after a late acknowledgement: process 7 needs too long for sample 1, then registers again; its acknowledgement of sample 1 ends the waiting for sample 2, which it has not even read.

### C68

- `C68_violated_silent` (Verif/Shm/GrowProps.lean): C68 is violated after one failed creation: from then on every send fails and no process is connected, whatever happens afterwards and however well the environment behaves.
- `C68_violated_not_announced` (Verif/Shm/GrowProps.lean): C68 is violated when the file had to be replaced because it could not be locked: the sample is reported as sent, into a file whose name nobody has been told.
- `C68_violated_division` (Verif/Shm/GrowProps.lean): C68 is violated when the files cannot be created at the start: the first send divides by zero.
- `C68_violated_unsubscribe` (Verif/Shm/GrowProps.lean): C68: a process that gave up its subscription is signalled for ever.

### C69

- `C69_violated_hex` (Verif/Config/AddressProps.lean): C69 is violated for hexadecimal addresses: ef.0.0.1 is accepted, but the group computed with is 0.0.0.1 instead of 239.0.0.1.
- `C69_violated_ambiguous` (Verif/Config/AddressProps.lean): … also when all digits are decimal: nothing tells the two writings apart.
- `C69_violated_mask` (Verif/Config/AddressProps.lean): C69: the end of the documented range of masks, 255.255.255.255, is refused.
- `C69_violated_leading_zero` (Verif/Config/AddressProps.lean): C69: a leading zero is accepted in the last place or not depending on the other octets.
- `C69_violated_integer_default` (Verif/Config/AddressProps.lean): … so the documented default can be missing.

### C70

- `C70_violated_restart` (Verif/Util/ThreadProps.lean): C70 is violated by starting again after a stop: the flag is never lowered, no callback ever runs.
- `C70_violated_self_stop` (Verif/Util/ThreadProps.lean): C70 is violated by stopping from inside the callback: the thread joins itself.
- `C70_violated_second_start` (Verif/Util/ThreadProps.lean): C70 is violated by starting twice: the program is terminated.

### C71

- `C71_violated_empty_part` (Verif/Text/SplitProps.lean): Empty parts do not survive.
- `C71_violated_last_empty` (Verif/Text/SplitProps.lean): C71 is violated for a quoted empty argument at the end: it is lost, although one in the middle is kept.
- `C71_violated_keep_empty` (Verif/Text/SplitProps.lean): … and with empty strings kept, no arguments at all become one empty argument, and a blank at the end adds another.

### C72

- `C72_violated_non_ascii` (Verif/Text/EditProps.lean): C72 is violated for other characters: the behaviour is undefined, e.g. for the UTF-8 text "ä".

### C73

- `C73_violated_undefined` (Verif/Text/PathProps.lean): C73 is violated: cleaning "a/../" reads the last character of an empty string.
- `C73_violated_dot` (Verif/Text/PathProps.lean): C73 is violated: "./.." is cleaned to the empty path, the parent of the current directory becomes the current directory; "./../x" becomes "x".
- `C73_violated_drive` (Verif/Text/PathProps.lean): C73 is violated in the default style: cleaning can produce a drive out of a directory name, and the cleaned path then means something else when cleaned again ("a/../C:" and "C:").
- `C73_violated_backslash` (Verif/Text/PathProps.lean): C73 is violated: the functions clean with the default style, whatever style the caller chose; a backslash in a file name becomes a separator.
- `C73_violated_root_directory` (Verif/Text/PathProps.lean): C73 is violated: in the root directory a relative path is taken for the name of a computer in the network, ".." does not leave it and the first component is not counted ("a/../b" becomes "//a/b").
- `C73_violated_relative` (Verif/Text/PathProps.lean): C73 is violated: when one path contains the other, or they differ in the first component, the relative path does not lead from the base to the path ("/a" to "/a/b" gives "a/b", "/a" to "/b" gives "b").
- `C73_violated_file_name` (Verif/Text/PathProps.lean): C73 is violated: the file name of a path that ends in ".." is the name of another directory.

### C74

- `C74_violated_incomplete` (Verif/Time/GateProps.lean): C74 is violated by a library that lacks a function: it is reported as not loaded but initialised and used all the same (the registration asks it whether the clock is synchronised).
- `C74_violated_second_start` (Verif/Time/GateProps.lean): C74 is violated: on the second start the library that was rejected counts as loaded.
- `C74_violated_mode_change` (Verif/Time/GateProps.lean): C74 is violated by changing the mode: starting for replay initialises the real-time plug-in again, and the stop does not finalise it.
- `C74_violated_shipped` (Verif/Time/GateProps.lean): C74 is violated in the shipped build: the functions of `eCAL::Time` never ask the plug-in.
- `C74_violated_failed_initialisation` (Verif/Time/GateProps.lean): C74 is violated when the plug-in is loaded but its initialisation failed: the time is 0.
- `C74_violated_sleep_twice` (Verif/Time/GateProps.lean): C74 is violated: with a valid time gate every wait is done twice, first by the plug-in and then by the system.
- `C74_violated_dump` (Verif/Time/GateProps.lean): C74 is violated: dumping the configuration when the time component was not initialised dereferences a null pointer.

### C75

- `C75_violated_deadlock` (Verif/Service/ManagersProps.lean): C75 is violated: a callback that asks for a manager (to create a client or server) while the library is being shut down may be at the lock that the stop holds; the stop waits for the callback's thread and never returns, whatever happens.
- `C75_violated_self_stop` (Verif/Service/ManagersProps.lean): C75 is violated: a callback that shuts the library down makes its own thread wait for itself.

### C76

- `C76_violated_stop_race` (Verif/Service/AcceptProps.lean): C76 is violated: a connection accepted just before the stop gets its session after the stop; nothing stops that session but its client (the io threads that the shutdown waits for stay busy with it).
- `C76_violated_error` (Verif/Service/AcceptProps.lean): C76 is violated: after one failed accept (for instance because all file descriptors were in use for a moment) the server never serves a new client again, although it stays open.

### C77

- `C77_violated_parallel` (Verif/Service/PoolProps.lean): C77 is violated: when four callbacks make a blocking call at the same time all io threads of the process wait for each other; none of these calls, and no call made later, is ever answered.
- `C77_violated_depth` (Verif/Service/PoolProps.lean): C77 is violated: so does a single call whose callbacks call each other four levels deep.

### C78

- `C78_violated_zero_length` (Verif/Capi/CopyProps.lean): C78 is violated: a buffer of length 0 is taken for a pointer variable; 8 bytes are written into nothing.
- `C78_violated_big` (Verif/Capi/CopyProps.lean): C78 is violated: a message of 2 GB or more (below 4 GB) is copied into any smaller buffer.
- `C78_violated_endless` (Verif/Capi/CopyProps.lean): C78 is violated: a message of exactly 4 GB makes the function that allocates call itself for ever.
- `C78_violated_empty` (Verif/Capi/CopyProps.lean): C78 is violated: an empty message looks like no message.
- `C78_violated_dangling` (Verif/Capi/CopyProps.lean): C78 is violated: the function made for empty messages reports success for an empty message and leaves the caller's pointer as it was; whatever it pointed to is released (a second time) by the caller.
- `C78_violated_no_memory` (Verif/Capi/CopyProps.lean): C78 is violated: so it does when there is no memory, with the length of the message.
- `C78_violated_lost` (Verif/Capi/CopyProps.lean): C78 is violated: a message that does not fit is lost, and the caller is told that there was none.
- `C78_violated_second_server` (Verif/Capi/CopyProps.lean): C78 is violated: when the first server does not answer but the second does, the caller gets neither the response nor the news that a server has answered.
- `C78_violated_empty_response` (Verif/Capi/CopyProps.lean): C78 is violated: a successful call with an empty response returns what a failed call returns.
- `C78_violated_negative_number` (Verif/Capi/CopyProps.lean): C78 is violated: a negative number of identifiers makes the library read beyond the array.

### C79

- `C79_violated_nested` (Verif/Capi/LockProps.lean): C79 is violated: a C method callback that calls a C service of the same process without a time limit waits for a callback that waits for the lock it holds: neither this call nor any other C service of the process is ever answered again.

### C80

- `C80_violated_stop_leaves_receiver` (Verif/Reader/WaitProps.lean): **C80 (violated by the stop).** "After the stop of a subscriber every receive returns" is wrong: `Stop` neither sets the flag nor notifies. A receive without a time limit that waits when the subscriber is stopped never returns, whatever happens afterwards.
- `C80_violated_destroy_under_receiver` (Verif/Reader/WaitProps.lean): **C80 (violated by the destruction).** Destroying a subscriber while a thread waits in a receive is undefined behaviour, also for a receive with a time limit, and also if the subscriber was stopped before (`CSubscriber::Destroy` stops it and gives it up): a stop never brings a waiting thread back.
- `C80_violated_callback_takes_samples` (Verif/Reader/WaitProps.lean): **C80 (violated by a callback).** "A waiting receiver gets the next sample" is wrong when a receive callback is set in the meantime: the samples go to the callback and nobody is notified.

### C81

- `C81_violated_other_calls` (Verif/Sync/ApiLocksProps.lean): **C81 (violated by every other call).** The table of the theorems above cannot be extended. For each callback and each call that the table does not allow – changing or destroying the subscriber in its receive callback, creating subscribers or asking for the connections in an event callback, sending in an event callback of the publisher, finalizing in a callback, and so on – there is a deadlock, even if all other callbacks keep to the table, with at most one registration send thread and one registration receive thread, and with or without preference of writers. (Asking a subscriber for its connections in the disconnected callback of a publisher is not covered: it would need two registration send threads.) Often a single thread deadlocks with itself: the callback runs with the lock that the call takes.
- `C81_violated_send_on_connect` (Verif/Sync/ApiLocksProps.lean): **C81 (violated: send in the connected callback).** The natural first message: a publisher sends in its connected callback. The registration cycle, which finds the publisher still without connections, holds the lock of the connections and waits for the lock of the callbacks; the callback holds that lock and waits for the other.
- `C81_violated_mutual` (Verif/Sync/ApiLocksProps.lean): **C81 (violated: two subscribers change each other's callbacks).** Each receive callback removes the callback of the other subscriber; both wait for ever.

### C82

- `C82_violated_tab` (Verif/Text/CmdLineProps.lean): **C82 (violated by a tab).** "Every list of arguments comes back" is wrong: an argument with a tab (or a line feed) and without a blank is not quoted, and becomes two arguments.
- `C82_violated_line_feed` (Verif/Text/CmdLineProps.lean): An argument that is a single line feed is lost.
- `C82_violated_parts` (Verif/Text/CmdLineProps.lean): **C82 (violated: a part is not always an argument).** A tab separates arguments but not parts: `a<tab>b` is one part and two arguments.

### C83

- `C83_violated_block` (Verif/Proc/StartProps.lean): **C83 (violated: the call does not wait).** In an ordinary process the grandchild is not a child of the caller: with `block_` the call returns at once, while the program runs.
- `C83_violated_lock_file` (Verif/Proc/StartProps.lean): **C83 (violated: no lock file).** If the lock file cannot be created (no permission on `/var/lock`), a program that does not exist is reported as started: the test `if (lockfile_fd)` lets the failure pass, the error number cannot be written, and main keeps the process id when it cannot open the lock file.
- `C83_violated_interrupt_lock` (Verif/Proc/StartProps.lean): **C83 (violated: a signal).** A signal handled by the caller during `flock` makes it read the lock file too early: a program that cannot be executed is reported as started.
- `C83_violated_slow` (Verif/Proc/StartProps.lean): **C83 (violated: slow start).** If the grandchild needs more than 5 s (or a signal interrupts `select`) before it sends its id, the call returns 0, the program is started nevertheless, and the lock file stays.
- `C83_violated_fifo` (Verif/Proc/StartProps.lean): **C83 (violated: no FIFO).** If the FIFO cannot be created the call goes on, starts the program and returns 0.
- `C83_violated_fork` (Verif/Proc/StartProps.lean): **C83 (violated: files stay).** If the first fork fails the FIFO stays.
- `C83_violated_hang` (Verif/Proc/StartProps.lean): **C83 (violated: a process hangs).** The grandchild can open the FIFO just after main has given up and before it removes the FIFO: then it waits for a reader for ever, whatever happens later.

### C84

- `C84_violated_payload_threads` (Verif/Life/FinalizeProps.lean): **C84 (violated: UDP and TCP payload threads).** Each of the threads that receive UDP or TCP payloads or send TCP payloads can access a destroyed part: each of them alone makes `Finalize` unsafe.
- `C84_violated_udp` (Verif/Life/FinalizeProps.lean): The execution for UDP: the thread finds the subscriber gate, `Finalize` runs to its end, the thread uses the gate.

### C85

- `C85_violated_deadlock` (Verif/Service/ManagerStopProps.lean): **C85 (violated: deadlock).** A service callback asks for a manager and is past the first look at the flag when the application calls `Finalize`: `stop` waits for the callback, the callback waits for `stop`; the call never returns.
- `C85_violated_two_stops` (Verif/Service/ManagerStopProps.lean): **C85 (violated: two calls of `Finalize`).** The same with a callback that calls `Finalize` while the application does: the callback waits for the mutex in `stop`.
- `C85_violated_own_thread` (Verif/Service/ManagerStopProps.lean): **C85 (violated: own thread).** A service callback that calls `Finalize` waits for its own thread: the process is terminated.

### C86

- `C86_violated_other_calls` (Verif/Sync/SvcLocksProps.lean): **C86 (violated by every other call).** The table of the theorems above cannot be extended. For each callback and each call that the table does not allow – a blocking call in the response callback of the same client, any call of the client in its connected, disconnected or timeout callback, removing an event callback or destroying the client there, removing the event callback of a server in this callback, and so on – there is a deadlock, even if all other callbacks keep to the table, with at most one registration send thread and one registration receive thread, and with or without preference of writers. Often a single thread deadlocks with itself. (Creating a server or finalising in an event callback of a server is the subject of C85.)
- `C86_violated_call_on_disconnect` (Verif/Sync/SvcLocksProps.lean): **C86 (violated: call on disconnect).** A client that makes a call, asynchronous or not, in its disconnected callback waits for ever, alone: the callback runs with the lock of the connections held.

### C87

- `C87_violated_library` (Verif/Sync/WriterRacesProps.lean): **C87 is violated**, without any call of the user: the registration of a subscriber starts a layer (and stores a pointer to it) in a thread that receives registrations while the registration cycle reads this pointer in another thread.
- `C87_violated_send` (Verif/Sync/WriterRacesProps.lean): **C87 is violated** by a program with one thread that only sends: a registration starts a layer while a payload is sent (and the send follows the pointer to the layer), and the registration cycle describes the publisher while a payload is sent (it reads the counter of the sends).

### C88

- `C88_violated_library` (Verif/Sync/ReaderRacesProps.lean): **C88 is violated**, without any call of the user: a layer delivers a sample (and marks itself as active, and counts the samples that got lost) while the registration cycle reads the state of the layers and this count in another thread.
- `C88_violated_setters` (Verif/Sync/ReaderRacesProps.lean): **C88 is violated** by a thread that sets the accepted identifiers while samples arrive (the set is searched while it is assigned), or the attributes while the registration cycle copies them.

### C89

- `C89_violated_library` (Verif/Sync/ClientRacesProps.lean): **C89 is violated**, without any call of the user: the registration cycle finds a connection failed and takes it out of the map of the connected servers without the lock of this map while a registration searches or extends the map in another thread.
- `C89_violated_connected` (Verif/Sync/ClientRacesProps.lean): **C89 is violated** by a thread that asks whether the client is connected at this moment.
- `C89_violated_finalize` (Verif/Sync/ClientRacesProps.lean): **C89 is violated** by `Finalize`: it clears the name and the identifier of the client under a lock that is only shared, while registrations compare the name and the registration cycle, which is stopped later, copies both.
- `C89_violated_host` (Verif/Sync/ClientRacesProps.lean): **C89 is violated** by a thread that changes the host filter while another one calls.

### C90

- `C90_violated_destroy` (Verif/Sync/ServerRacesProps.lean): **C90 is violated** by the end of a server: `Destroy` stops the TCP servers without waiting for the service threads and clears the name and the identifier of the server while a request that is just being served copies them.
- `C90_violated_create` (Verif/Sync/ServerRacesProps.lean): **C90 is violated** by the start of a server: a TCP server accepts connections before it has been stored, and the service thread that reports a connection reads the place where it is being stored.
- `C90_violated_finalize` (Verif/Sync/ServerRacesProps.lean): **C90 is violated** by `Finalize`: it clears the name and the identifier of the server under a lock that is only shared, while the registration cycle, which is stopped later, copies both.

### C91

- `C91_violated_connected` (Verif/Service/ClientNotifyProps.lean): **C91 (violated: connection).** The application adds a callback for connections and removes it again; the next server that appears terminates the process.
- `C91_violated_disconnected` (Verif/Service/ClientNotifyProps.lean): **C91 (violated: disconnection).** The application removes its callback for disconnections; the next server whose connection fails terminates the process.
- `C91_violated_timeout` (Verif/Service/ClientNotifyProps.lean): **C91 (violated: timeout).** The application removes its callback for timeouts; a call with a time limit that one server does not answer throws, and the answers of the other servers are lost for the caller that is told by callback.
- `C91_violated_remove_only` (Verif/Service/ClientNotifyProps.lean): **C91 (violated: removing what was never added).** A removal alone, without any callback before, has the same effect.

### C93

- `C93_violated_destroyed_while_connecting` (Verif/Service/SessionStopProps.lean): **C93 violated (a client destroyed while it connects).** With either protocol version: the connection of the destroyed client stays open, the manager cannot reach it any more, and unless the server closes the connection the service threads never end, whatever the application and the manager do: `Finalize` waits for ever.
- `C93_violated_second_host` (Verif/Service/SessionStopProps.lean): **C93 violated (stopped while it connects to the first name).** `stop` closes the socket, the attempt ends with an error, and the session goes on with the second host name of its list.

### C94

- `C94_violated_restart_is_useless` (Verif/Shm/PoolProps.lean): Violated: **a successful request does not start the observation**. An observer that ended because of its timeout stays in the pool until the next cleanup (once per second). A request in that time restarts it, but the time of the last life signal is left as it was (L390-391, L99-119): the new thread leaves its loop at the first check. Whatever happens afterwards — the publisher may send and signal — no content of the memory file is processed until the next request.
- `C94_violated_request_while_leaving` (Verif/Shm/PoolProps.lean): Violated: **a request can come too late for an observer that still counts as observing**. Between the last check of its loop and the end of its thread the flag is still set: the request renews the life signal and reports success, the observer ends nevertheless.
- `C94_violated_observer_after_stop` (Verif/Shm/PoolProps.lean): Violated: **an observer can be started after the pool was stopped**. The test whether the pool is running (L370) is made before the lock is taken (L374): a request that passed it waits for `Stop` to release the lock, starts a new observer in the stopped pool and reports success; its thread processes contents after `Stop` has returned.

### C95

- `C95_violated_slow_registration` (Verif/Service/TargetsProps.lean): Violated: **a living server is not called if it registers less often than every five seconds**, even though the configured registration timeout may be much longer. For every interval `d` above 5000 ms: the server registers at `t`, another service registers more than 5000 ms and less than `d` later, and a call in that moment reaches nobody.
- `C95_violated_dead_server_called` (Verif/Service/TargetsProps.lean): Violated: **a server that is gone is called for ever**. Neither its unregistration nor the passing of time removes a server from the table; only a later registration of some service does. If none arrives, every call at any later time is still handed to the session of the vanished server.
- `C95_violated_ambiguous_key` (Verif/Service/TargetsProps.lean): Without the condition on ids it fails (ids of foreign implementations): two services share one key.
- `C95_violated_version_wraps` (Verif/Service/TargetsProps.lean): Violated: a version number that is a multiple of 256 (a server announcing it has to exist) makes the client talk the old protocol to the port of the new one: the cast to eight bits comes after the choice of the port.

### C96

- `C96_violated_full_path` (Verif/Config/SearchProps.lean): Violated: **a file named with its full path can be replaced by another one**. Full paths are appended to every search directory first: whoever can create files below one of them (the working directory, say) supplies the configuration, although the named file exists.
- `C96_violated_active_file` (Verif/Config/SearchProps.lean): Violated: **the reported active file is not the loaded one**. The working directory is searched first when the configuration is loaded, but not when the active file is reported; a file named on the command line is never reported.
- `C96_violated_config_path` (Verif/Config/SearchProps.lean): Violated: **a file in the working directory hides the configuration directory**. If ECAL_DATA is not set, its empty prefix matches a file in the working directory (`hrel`: a name without directory means the working directory); the search stops with the empty path, which also means "there is none", although the system directory holds one.
- `C96_violated_null_pointer` (Verif/Config/SearchProps.lean): Violated: **a removed working directory, or a user without an entry and without HOME (as in many containers), is undefined behaviour**: a string is made of a null pointer, respectively a null pointer is followed.
- `C96_violated_no_home` (Verif/Config/SearchProps.lean): **C96, violated**: without either the null pointer that `getpwuid` returned is dereferenced.

### C97

- `C97_violated_nested_array` (Verif/Proto/FilterProps.lean): Violated: **the array of an inserted element is not accepted** unless it is the first part of the name. With `CreateSet("a.b.c[1].d")` the comment promises `a.b.c`, the code inserts `c`: the decoder asks for `a.b.c` first and never gets to the elements (C98), while a field `c` of the topmost message is accepted.
- `C97_violated_erase_prefix` (Verif/Proto/FilterProps.lean): Violated: **an erased name can stay**, because another name begins with the same characters without being part of it.
- `C97_violated_erase_parent` (Verif/Proto/FilterProps.lean): Violated: **erasing a name removes another one that was inserted**, if the other one contains it.
- `C97_violated_erase_undefined` (Verif/Proto/FilterProps.lean): Violated: **erasing is undefined behaviour if the name is not in the set** — the end iterator is advanced and erased. This hits an application that erases exactly what it inserted, once each.
- `C97_violated_two_indices` (Verif/Proto/FilterProps.lean): Violated: **a name with two indices is never accepted**, not even if exactly this name was inserted: what was found is appended to itself.
- `C97_violated_index_hides_star` (Verif/Proto/FilterProps.lean): Violated: "any combination of indices and stars": **an index hides the star**. `a[*].y` covers `a[1].y`, but once any element of `a[1]` is inserted as well it is rejected.

### C98

- `C98_violated_array_unreachable` (Verif/Proto/DecoderProps.lean): Violated: **an element of an array cannot be selected**, not even with its own complete name, unless the array is a field of the topmost message and the walk starts without a name. The filter does not accept the array itself (`C97_violated_nested_array`), for which the decoder asks first.
- `C98_violated_array_silent` (Verif/Proto/DecoderProps.lean): The same with the values of a message: the only selected element is not reported, neither with the simple nor with the complex filter.

### C99

- `C99_violated_unseen_import` (Verif/Proto/TypeDescProps.lean): Violated: **an imported file without message types, enumerations and services is not in the description** – a file with public imports only, or with extensions –, whatever imports it.
- `C99_violated_unseen_import_receiver` (Verif/Proto/TypeDescProps.lean): **The consequence: no subscriber without the file can create a message of the type.**
- `C99_violated_umbrella` (Verif/Proto/TypeDescProps.lean): The case exists: the description has the type's file before the file of the field's type, and lacks the file between.
- `C99_violated_service_import` (Verif/Proto/TypeDescProps.lean): Violated: **a file with services (or enumerations) but without messages is added without its imports**.
- `C99_violated_same_name` (Verif/Proto/TypeDescProps.lean): Violated: **a subscriber takes the type of the same name from another package**: the description is complete and in order, but the search stops at the import, and the messages are read as messages of the imported type.
- `C99_violated_nested` (Verif/Proto/TypeDescProps.lean): Violated: **a nested message type is not found**.
- `C99_violated_old_type` (Verif/Proto/TypeDescProps.lean): Violated: **a type seen before outside of any package is taken for every type of the same name**, even if no two types of the publisher have the same name.
- `C99_violated_exponential` (Verif/Proto/TypeDescProps.lean): Violated: **describing a type takes a number of steps exponential in the depth of the imports**: with two messages in each file of a chain of `n` imports more than `2 ^ n` calls.

### C100

- `C100_violated_type_frozen` (Verif/Proto/DynamicProps.lean): Violated: **the type is never looked at again**: whatever is announced for the topic after the first message, messages are decoded as the first type, until the object is moved.
- `C100_violated_restart` (Verif/Proto/DynamicProps.lean): What it looks like: the publisher restarts with another type; its well-formed messages are delivered as messages of the old type (here: type 1 reads a content as it is, type 2 doubles it).
- `C100_violated_malformed` (Verif/Proto/DynamicProps.lean): Violated: **data that is no message of the type is delivered as if it were one**; no error is reported.
- `C100_violated_json_terminates` (Verif/Proto/DynamicProps.lean): Violated: **with JSON such data ends the process**, and so does a description from which the type cannot be made: a pointer is thrown, which the handler for exceptions of this type does not catch.
- `C100_violated_move` (Verif/Proto/DynamicProps.lean): Violated: **a moved subscriber has lost its error callback**: a message without known type is reported before the move and not after it.

### C101

- `C101_violated_empty_message` (Verif/Msg/TypedProps.lean): **C101 (violated: a message nobody sent).** A `CMsgPublisher` that finds no subscriber replaces the message by an empty payload and calls the plain `Send`, which looks again: a subscriber that connects between the two looks receives the empty message - for a string topic the empty string - although the application sent `[104, 105]`.
- `C101_violated_stale_message` (Verif/Msg/TypedProps.lean): **C101 (violated: a failed payload writer).** The result of `WriteFull` is ignored when the payload is copied: if a payload writer fails, the bytes of the previous message still in the buffer are sent as a new sample. The subscriber gets the previous reading again, under a new counter value, and `Send` returns the full size as if it had worked.
- `C101_violated_bytes_sent` (Verif/Msg/TypedProps.lean): **C101 (violated: the number of bytes sent).** Without any subscriber nothing is sent, yet a publisher with its own payload writer reports the full size; a `CMsgPublisher` reports 0 for the same message, which is also what it reports for an empty message that did reach every subscriber.

### C102

- `C102_violated_growing` (Verif/Shm/PartialProps.lean): **C102 (violated: a growing payload).** `m_payload_initialized` does not depend on the size. A payload that grew, but still fits into the file, is written with `WriteModified` although the added bytes were never written by `WriteFull`: the third byte readers get is the zero of the new file - or whatever an earlier, longer payload left there. `WriteModified` does its duty for the bytes that existed.
- `C102_violated_failed_write` (Verif/Shm/PartialProps.lean): **C102 (violated: a failed write).** If the payload object reports that it could not write, the readers are told of a sample all the same and find the previous content again (with a new counter value).
- `C102_violated_other_content` (Verif/Shm/PartialProps.lean): **C102 (violated: other content in between).** A payload object that tracks its own changes is not told that something else was sent by the same publisher: after `Send(buffer)` its partial write changes the buffer's bytes.

### C103

- `C103_violated_move_race` (Verif/Msg/OwnerProps.lean): **C103 (violated: moves race with the receiving thread).** The move takes the callback out of the old object without its lock, while the reader's callback still leads there: a sample arriving during the move makes the receiving thread copy the very same member.
- `C103_violated_move_loses` (Verif/Msg/OwnerProps.lean): **C103 (violated: moves lose samples).** Even where the race does no harm, a sample that arrives between the move of the callback and the new binding reaches no callback.
- `C103_violated_empty_callback` (Verif/Msg/OwnerProps.lean): **C103 (violated: an empty callback).** `AddReceiveCallback` with an empty function binds the object all the same. A move then finds no callback and leaves the binding with the old object; when that is deleted, the next sample makes the receiving thread work on freed memory.
- `C103_violated_old_destructor` (Verif/Msg/OwnerProps.lean): **C103 (violated: the older class).** `CMsgSubscriber` leaves its destruction to the base class, which removes the callback only after the members of the derived class are gone: a sample arriving in between is handled by a destroyed object.
- `C103_violated_self_move` (Verif/Msg/OwnerProps.lean): **C103 (violated: assignment to itself).** Moving a subscriber to itself destroys it.

### C104

- `C104_violated_deaf` (Verif/E2E/NetProps.lean): **C104 violated (liveness).** After one damaged datagram — three bytes from anywhere — nothing sent over UDP arrives any more, although the subscription stays; what comes over TCP still does.

### C105

- `C105_violated_zero_copy_check` (Verif/E2E/ShmProps.lean): **C105 violated (zero copy and the size check).** The size check of the zero-copy path forgets the header: for a file with an inconsistent size — as an incomplete write leaves it — the sample passed on reaches beyond the content.

### C106

- `C106_violated_late_datagram` (Verif/E2E/DiscFindProps.lean): **C106 violated (a late datagram brings back a destroyed subscriber).** The subscriber announces itself and is destroyed; both datagrams reach the publisher's process, the older one last. The publisher knows a subscriber that does not exist any more (until the timeout).

### C107

- `C107_violated_described_only` (Verif/E2E/CallRestProps.lean): **C107 (a described method without a function).** A request for it terminates the server process instead of being answered (see C39): the caller gets an error at best.

### C108

- `C108_violated_unregistration_lost` (Verif/E2E/ShmRegDeliverProps.lean): **C108 violated (an unregistration gets lost).** The subscriber is destroyed and process 1 writes and announces the unregistration; every access works. Before process 0 polls, the next cycle of process 1 writes into the same payload file. Process 0 never gets the unregistration, and its publisher keeps a subscriber nobody has (until the timeout).
- `C108_violated_registrations_overwritten` (Verif/E2E/ShmRegDeliverProps.lean): **C108 violated (registrations get lost when something is added).** In one cycle process 1 writes the list of its registrations, announces it, and then writes what was added in between into the same payload file. Process 0 polls after both writes and gets two events, and only the second list: the registration of the subscriber and of the process itself are missing, although every access worked.
- `C108_violated_leaving_process` (Verif/E2E/ShmRegDeliverProps.lean): **C108 violated (one process that leaves takes the registrations of the others along).** Processes 1 and 2 have announced their lists; process 0 begins to poll; process 2 leaves and removes its payload file before process 0 has opened it. The poll yields nothing, and the next one neither: the list of process 1 was read and is lost.
- `C108_violated_failed_open` (Verif/E2E/ShmRegDeliverProps.lean): **C108 violated (a failed open is never repeated).** Process 0 could not open the payload file of process 2 once. From then on a poll in which process 2 has updated its file yields nothing, also of process 1, although every access works (see `C108_failed_open_silences_all`).

### C109

- `C109_violated_host_group` (Verif/E2E/SvcProps.lean): Violated: **servers outside the host whose name is the host group are not found.** Two processes in one host group, which is not the name of the server's host: without network mode no call ever goes to a server of that process, in any history. (Publishers and subscribers of the same two processes do find each other: their registrations carry the host group, those of servers do not.)
- `C109_violated_missing_port` (Verif/E2E/SvcProps.lean): Violated: **a server that lacks the port of one enabled protocol is not found at all**, even if the port of the other protocol is open: its registrations carry neither name nor ports.
- `C109_violated_destroyed_server_called` (Verif/E2E/SvcProps.lean): Violated: **a server that was destroyed is still called.** Its unregistration was sent and has arrived, a minute passed, and the call still goes to its session: nothing but a later registration of some server removes it.

### C110

- `C110_violated_create_uninitialised` (Verif/Life/ObjectsProps.lean): C110, violated: creating a publisher while the publisher component is not initialised calls a member function of a null pointer (`ecal_publisher.cpp` L97).
- `C110_violated_zombie` (Verif/Life/ObjectsProps.lean): C110, violated: a publisher that is kept over `Finalize` and `Initialize` is not announced any more, `Create` refuses to set it up again, and `Send` still reports success.
- `C110_violated_stale_publisher` (Verif/Life/ObjectsProps.lean): C110, violated: a subscriber that is kept over `Finalize` reports a publisher although nothing is initialised.
- `C110_violated_server_before_init` (Verif/Life/ObjectsProps.lean): C110, violated: a server that is created before the library is initialised is never announced (`Create` returns true).
- `C110_violated_dead_server_created` (Verif/Life/ObjectsProps.lean): C110, violated: `Create` of a server returns true although the server was not started, if the service component was not initialised again after a `Finalize`.

### C111

- `C111_violated_connected_without_layer` (Verif/E2E/FlowDeliverProps.lean): **C111 violated (connected, but nothing arrives).** The publisher offers UDP only and the subscriber listens on shared memory only. They find each other, and both are told that they are connected; the publisher counts a subscriber, but whatever it sends, no message is handed to any layer.

### C112

- `C112_violated_no_fallback_after_handshake` (Verif/Service/ClientHostsProps.lean): A finding: a host that can be reached but does not complete the handshake ends the session; hosts further down the list that would accept are not tried (L238-365 call `handle_connection_loss_error`, not `resolve_endpoint`).

### C113

- `C113_violated_hidden` (Verif/E2E/MonProps.lean): Violated: **a living publisher is hidden by another one** that has the same concatenation of topic name and id (here `t` with id `pp`, and `tp` with id `p`): after both were announced, only the second is listed.
- `C113_violated_ghost` (Verif/E2E/MonProps.lean): Violated: **a destroyed publisher is listed** when its announcement arrives after its withdrawal (until the timeout).

### C114

- `C114_violated_called_after_removal` (Verif/Registration/UserCbProps.lean): Violated: **a callback is called after it was removed** (the receiving thread had copied it before).
- `C114_violated_race` (Verif/Sync/RegCbRacesProps.lean): Violated: **setting or removing a callback while a registration of its kind arrives is a data race** (nothing protects the function that is copied), and so is switching the loopback mode while the own registrations arrive.
- `C114_violated_finalize` (Verif/Sync/RegCbRacesProps.lean): Violated: **a registration callback that calls `Finalize` never returns**; it waits for the lock its own thread holds.

### C115

- `C115_violated_smaller_queue` (Verif/Shm/PosixProps.lean): Violation: a process that asks for less than the first creator did is killed by its first write (its mapping is replaced by a read-only one), whatever the lengths if the difference is large enough to need another mapping. This happens with the registration over shared memory if `queue_size` is configured smaller in a second process (`/repo/ecal/core/src/registration/shm/ecal_memfile_broadcast.cpp` L72-99): `CMemoryFileBroadcast::Create` accepts the larger existing file (L83) and writes (L99).
- `C115_violated_cut_off` (Verif/Shm/PosixProps.lean): Violation: and the first creator is killed, too, when it uses the part of its segment that the second one cut off.
- `C115_violated_opened_too_early` (Verif/Shm/PosixProps.lean): Violation: opening a segment between `shm_open` and `ftruncate` of its creator kills the process.
- `C115_violated_mmap_fails` (Verif/Shm/PosixProps.lean): Violation: a process that cannot map a segment it opens is killed instead of being told.
- `C115_violated_ftruncate_fails` (Verif/Shm/PosixProps.lean): Violation: a creator whose `ftruncate` fails is killed, too.
- `C115_violated_descriptor_zero` (Verif/Shm/PosixProps.lean): Violation: descriptor 0 is valid (standard input was closed), but counts as "no file": who opens a segment with it is killed; who creates one can never write, and the descriptor is never closed.
- `C115_violated_late_reset` (Verif/Shm/PosixProps.lean): Violation: two processes create a segment at the same time; the second is faster, a sample it has written and another process has read is gone when the first one finishes its creation.
- `C115_violated_stuck_reader` (Verif/Shm/PosixProps.lean): Violation: a reader that looks at a segment before the header is written never reads anything from it, whatever is written later and however often it tries: it has copied a header size of 0 and from then on copies 0 bytes of the header (`ecal_memfile.cpp` L379).
- `C115_violated_mutex_fails` (Verif/Shm/PosixProps.lean): Violation: if the mutex of a segment cannot be created, `Create` reports failure but keeps the descriptor and the mapping, and `Destroy` does not give them back: nothing the process does with the object ends this.

### C116

- `C116_violated_lost_response` (Verif/E2E/TypedCallProps.lean): **C116, violation: a response is lost and the call reported as executed.** The method was called and made a message that cannot be serialised; the caller is told "executed" with return value 0 and gets an empty response.
- `C116_violated_answers_after_destroy` (Verif/E2E/TypedCallProps.lean): **C116, violation: a destroyed service goes on answering.** After `Destroy` of the typed server a call is still reported as executed (with return value -1), although no method was called.
- `C116_violated_early_request` (Verif/Msg/TypedSvcProps.lean): **C116, violation: a request during `Create` terminates the server.** A method is announced with an empty function before its callback is set; a request in between calls the empty function.
- `C116_violated_create_race` (Verif/Msg/TypedSvcProps.lean): **C116, violation: a request during `Create` races.** The first method can already be called while `Create` still enters the others into the table the callback reads.
- `C116_violated_destroy_race` (Verif/Msg/TypedSvcProps.lean): **C116, violation: `Destroy` races with a running request.**
- `C116_violated_destroyed_object` (Verif/Msg/TypedSvcProps.lean): **C116, violation: a callback on a destroyed server.** The destructor of the typed part has finished, the base part still accepts requests and calls back into the destroyed part.
- `C116_violated_late_callback` (Verif/Msg/TypedSvcProps.lean): **C116, violation: a callback on a destroyed server, after the destructors.** A request that looked its method up before the method table was cleared runs its callback when the object is gone altogether.
- `C116_violated_destroy_keeps_server` (Verif/Msg/TypedSvcProps.lean): **C116, violation: `Destroy` destroys nothing.** It returns true, but the server is still there, with all its methods, and answers requests with -1.
- `C116_violated_second_create` (Verif/Msg/TypedSvcProps.lean): **C116, violation: `Create` on a server that exists returns true.** The untyped creation is refused, but the typed one reports success — and replaces the service behind the old name.
- `C116_violated_deprecated_wrong_server` (Verif/Msg/TypedSvcProps.lean): **C116, violation: a deprecated call succeeds with the failure of another server.** One of two servers executed the call, the other did not: the caller gets true and the response of the one that failed.
- `C116_violated_deprecated_unparsed` (Verif/Msg/TypedSvcProps.lean): **C116, violation: a deprecated call succeeds without a response.** The response cannot be parsed; the caller gets true and whatever the parser left behind.
- `C116_violated_sticky_host` (Verif/Msg/TypedSvcProps.lean): **C116, violation: the host of a deprecated call stays.** The call sets the host filter of the client, so that later calls without a host go to this host only.

### C117

- `C117_violated_simultaneous_open` (Verif/Sync/NamedEventProps.lean): C117 is violated by processes that open a name at the same time: opening succeeds for both, no system call fails for a reason other than the race, and from then on nothing the publisher signals reaches the subscriber, for any continuation in which the subscriber keeps its event.
- `C117_violated_opened_too_early` (Verif/Sync/NamedEventProps.lean): C117 is violated by a process that opens the event between its creation and the call that gives it a size: the first access to the event kills the process (`SIGBUS`).
- `C117_violated_opened_before_init` (Verif/Sync/NamedEventProps.lean): C117 is violated by a process that opens the event after it got its size and before its mutex is initialised: it locks a mutex nobody has initialised.
- `C117_violated_owner_closes_first` (Verif/Sync/NamedEventProps.lean): C117 is violated by owners that close first: a process that opens the event afterwards gets another one, and its signals do not reach those who have held the event all the time.
- `C117_violated_two_owners` (Verif/Sync/NamedEventProps.lean): C117 is violated by two owners, as `Ok` and `ShutdownProcess` are: the first closes, a third process creates the event anew, the second closes its old one and thereby removes the name of the new one.
- `C117_violated_mmap_fails` (Verif/Sync/NamedEventProps.lean): C117 is violated when the mapping of an existing event fails: the result of `mmap` is not checked, the first access kills the process.
- `C117_violated_no_room` (Verif/Sync/NamedEventProps.lean): C117 is violated when there is no room for a new event: the creator gives up but leaves the name behind, and every process that opens the name from then on is killed by its first access, also when there is room again.
- `C117_violated_left_behind` (Verif/Sync/NamedEventProps.lean): C117 is violated by a subscriber that opens the event after the publisher has gone: it creates the event and, not being the owner, leaves it behind when it closes; nobody has the event open, the name exists.
- `C117_violated_stale_signal` (Verif/Sync/NamedEventProps.lean): C117 is violated across generations of users: a signal nobody took before the process died is seen by the next process that opens the name, however much later.

### C118

- `C118_violated_reused_pid` (Verif/Sync/ShutdownAllProps.lean): C118 is violated by lists that are not up to date: the process of the name has ended, its id belongs to another process now, and that one is told to shut down.
- `C118_violated_not_listed` (Verif/Sync/ShutdownAllProps.lean): C118 is violated by processes the caller's monitoring has not heard of yet: the call returns, the process runs on.
- `C118_violated_same_host_name` (Verif/Sync/ShutdownAllProps.lean): C118 is violated by hosts of the same name: a process id of the other host is asked on the own one.
- `C118_violated_unit_name` (Verif/Sync/ShutdownAllProps.lean): C118 is violated by users that name their unit like a tool of eCAL: `ShutdownProcesses` leaves them out.
- `C118_violated_by_unit_name` (Verif/Sync/ShutdownAllProps.lean): C118 is violated by the documentation of the function (core/include/ecal/ecal_util.h L135-140, "using it's unit name", `eCAL_Util_ShutdownUnitName`): the given name is compared with the name of the program, so a unit name, which is never the name of a program, asks no process at all, whatever is listed.

### C121

- `C121_violated_set_state` (Verif/Sync/ProcessRacesProps.lean): **C121 is violated** by the state of the process: `SetState` writes the severity, the level and the text without a lock, while the registration cycle copies them and other threads may set them too.
- `C121_violated_unit_name` (Verif/Sync/ProcessRacesProps.lean): **C121 is violated** by the unit name: `SetUnitName` assigns a string which the registration cycle and every log message copy.
- `C121_violated_filter` (Verif/Sync/ProcessRacesProps.lean): **C121 is violated** by the filters of the monitoring: they are assigned without the lock under which `SetFilterState` reads them.
- `C121_violated_log_level` (Verif/Sync/ProcessRacesProps.lean): **C121 is violated** by the log level: `Log` without a level reads it before it takes the lock under which `SetLogLevel` writes it.
- `C121_violated_first_call` (Verif/Sync/ProcessRacesProps.lean): **C121 is violated** by values that are looked up once: the first registration cycle stores the parameters of the process in a string without a lock while a call of the user does the same.
- `C121_violated_initialize` (Verif/Sync/ProcessRacesProps.lean): **C121 is violated** by a further `Initialize`: it replaces the configuration while other threads read it, sets the pointers to new components while the registration cycle reads them, and starts the log once more without its lock.

### C122

- `C122_violated_port_used_again` (Verif/E2E/SvcCallProps.lean): Violated: **a call is executed by a server of another service.** The server of "x" is gone, a server of "y" listens at its port. The client of "x", which knows only the server that is gone, calls its method "m"; the server of "y" executes its own method "m" with this request, and the caller is told that the call was executed.

### C123

- `C123_violated_block` (Verif/Proc/TermProps.lean): **C123 (violated: the call does not wait).** The program is not a child of the caller: with `block_` the call returns while the program runs, even if the caller inherits orphans.
- `C123_violated_window_closed` (Verif/Proc/TermProps.lean): **C123 (violated: the window is closed).** If the window is closed after the stub has sent its id and before it executes the program, the call returns the id although the program was never executed: the lock is free and the lock file is empty.
- `C123_violated_lock_file` (Verif/Proc/TermProps.lean): **C123 (violated: no lock file).** If the lock file cannot be created, a program that does not exist is reported as started.
- `C123_violated_slow` (Verif/Proc/TermProps.lean): **C123 (violated: slow terminal).** If the terminal needs more than 5 s to start the stub, the call returns 0, the program is started nevertheless, and the lock file stays.
- `C123_violated_hang` (Verif/Proc/TermProps.lean): **C123 (violated: the stub hangs).** The stub can open the FIFO just after main has given up and before it removes the FIFO: then it waits for a reader for ever, until the window is closed.

### C124

- `C124_violated_empty_send` (Verif/Capi/HandleProps.lean): C124 is violated: of a message without bytes the caller does not learn whether it was sent; 0 is returned whatever the publisher says.
- `C124_violated_ids` (Verif/Capi/HandleProps.lean): C124 is violated: `eCAL_Sub_SetID` returns 1 also if the subscriber has refused the ids (it is not created, ecal_subscriber.cpp L126).
- `C124_violated_description` (Verif/Capi/HandleProps.lean): C124 is violated: the description of a type may contain zero bytes (a serialised descriptor does), but an event callback gets no length; what it can read as a text ends before the first zero.
- `C124_violated_null_callback` (Verif/Capi/HandleProps.lean): C124 is violated: a null function is accepted as a callback (the C++ interface takes an empty one as none), and called at the next event.
- `C124_violated_status` (Verif/Capi/HandleProps.lean): C124 is violated: with a maximal length the message is written over the pointer of the caller, and, if it is longer than a pointer, over what follows.

### C125

- `C125_violated_hosts` (Verif/E2E/IdentProps.lean): **C125 violated (two hosts).** The clocks of two hosts are steady and independent, yet two publishers on them can get the same identity; one of their two messages is not delivered, whatever the hash function.
- `C125_violated_same_tick` (Verif/E2E/IdentProps.lean): **C125 violated (one process).** Also on one host: a steady clock may show the same number twice, for example to two threads that create a publisher at the same moment.
- `C125_violated_hash` (Verif/E2E/IdentProps.lean): **C125 violated (hashes).** Different identities are not enough: the messages carry only one number made from identity and counter. For a hash function with a small difference between two identities the second message of the second publisher is taken for a copy of the first publisher's first one, and is lost.
- `C125_violated_peers` (Verif/E2E/IdentProps.lean): **C125 violated (who is connected).** Two publishers of one process with the same clock reading count as one; when one of them is destroyed the subscriber forgets both.
- `C125_violated_monitor` (Verif/E2E/IdentProps.lean): **C125 violated (monitoring).** Of two publishers of a topic on different hosts only the one registered last is listed, if their clock readings agree.

### C126

- `C126_violated_small_buffer` (Verif/E2E/LoggingProps.lean): **C126 violated (small buffer).** The C function clears the list before it looks at the buffer: with a buffer that is too small it returns 0 and all collected messages are gone.
- `C126_violated_deaf` (Verif/E2E/LoggingProps.lean): **C126 violated (deaf).** One datagram that is not well formed makes the process deaf for all later log messages (the receiver of C24).
- `C126_violated_unbounded` (Verif/E2E/LoggingProps.lean): **C126 violated (memory).** Every process collects, whether it ever fetches or not, without a limit: any number of arriving messages is kept.
- `C126_violated_stale` (Verif/E2E/LoggingProps.lean): **C126 violated (library not initialised).** A program that asks again after the library was finalised, with the same text variable, gets the messages it has got before once more, and a length that says so.
- `C126_violated_forged` (Verif/E2E/LoggingProps.lean): **C126 violated (forged line).** A text with a line feed can look like another message: the file of one call is the file of two.
- `C126_violated_zero` (Verif/E2E/LoggingProps.lean): **C126 violated (zero byte).** The rest of a text after a zero byte is not in the file, though it is sent to other processes.

### C127

- `C127_violated_small` (Verif/Capi/UtilProps.lean): **C127 violated (small buffer).** Too small a buffer gives the same answer as an unknown topic: 0, nothing copied.
- `C127_violated_untyped` (Verif/Capi/UtilProps.lean): **C127 violated (no type).** A topic without a type cannot be told from a topic that does not exist.
- `C127_violated_mixture` (Verif/Capi/UtilProps.lean): **C127 violated (mixture).** Between the call for the name and the call for the description the first publisher goes: the program gets name and description that no entity has ever announced together.

### C128

- `C128_violated_domain` (Verif/Shm/NamesProps.lean): **C128 is violated: a domain named like a publisher's file.** Whatever number a publisher draws, there is a domain name without any special letter that is the name of its file.
- `C128_violated_ecal` (Verif/Shm/NamesProps.lean): **C128 is violated: the domain `ecal`.** The payloads of the registration domain `ecal` are named like the files of publishers: payload 10 is the file of the publisher that draws 16.
- `C128_violated_nested` (Verif/Shm/NamesProps.lean): **C128 is violated: domains side by side.** A domain named like another one with a number is a payload of the other.
- `C128_violated_mutex` (Verif/Shm/NamesProps.lean): **C128 is violated: a domain named like a mutex.**
- `C128_violated_same_number` (Verif/Shm/NamesProps.lean): **C128 is violated: a number drawn twice.** Two living publishers that draw the same number write into one file: who has subscribed to the first gets what the second sends to its own topic.
- `C128_violated_taken_away` (Verif/Shm/NamesProps.lean): **C128 is violated: taken away.** When one of them is destroyed, the file of the other one is gone: nobody can subscribe to it any more.
- `C128_violated_left_over` (Verif/Shm/NamesProps.lean): **C128 is violated: left over.** The file of a publisher whose process died stays; a publisher that draws its number later, even after a long time, sends to those who had subscribed to the dead one.

### C129

- `C129_violated_inherits` (Verif/Proc/ForkProps.lean): **The rule behind the violations**: a process forked by one that has read its id reports the id of its parent – in every history, for good, unless it starts another program.
- `C129_violated_fork` (Verif/Proc/ForkProps.lean): **Violation**: a program reads its id and forks afterwards. Parent and child report the same id; every registration the child sends is dropped by the parent as its own, and the other way round, whatever it registers: publishers and subscribers, servers and clients of the two never meet.
- `C129_violated_not_told` (Verif/Proc/ForkProps.lean): **Violation**: a request to stop that is sent to the number of such a child is never seen by it.
- `C129_violated_wrong_one` (Verif/Proc/ForkProps.lean): **Violation**: a request that is sent to the parent is taken by the child if it asks first; the parent goes on.
- `C129_violated_reuse` (Verif/Proc/ForkProps.lean): **Violation**: the parent ends and its number is given to a program that has nothing to do with it: the child, still living, and the new program report the same id.
- `C129_violated_rename` (Verif/Proc/ForkProps.lean): **Violation**: after the host has been renamed, a program that has read the name before and one that has not report different hosts; with the default host group they are strangers to each other: without network mode neither accepts a registration of the other.

### C130

- `C130_violated_old_text` (Verif/Proc/SelfProps.lean): **C130 is violated** by a state set without a text: the process is shown as healthy with the text of its failure.
- `C130_violated_components` (Verif/Proc/SelfProps.lean): **C130 is violated** for the components that are not in the text: services and monitoring do not change it.
- `C130_violated_nameless` (Verif/Proc/SelfProps.lean): **C130 is violated** by a process that names no unit: unless a call has said something about the name, the process is known under the empty name, not under the name of its program.
- `C130_violated_left_over` (Verif/Proc/SelfProps.lean): **C130 is violated** after `Finalize`: a process that is initialised again without a name has the name of its former unit.
- `C130_violated_deleted` (Verif/Proc/SelfProps.lean): **C130 is violated** by replaced programs: if the file of the program was deleted before the process asked for its name, the system adds ` (deleted)` to the path, and this becomes a part of the name of the unit.
- `C130_violated_task` (Verif/Proc/SelfProps.lean): **C130 is violated** by the task parameters: nothing sets them, and every process answers the empty text.

### C131

- `C131_violated_failed_layer` (Verif/Mon/TopicProps.lean): **C131 violated: failed layers.** A layer is shown as active although every attempt to send by it failed (and `Send` returned 0).
- `C131_violated_layer_out_of_use` (Verif/Mon/TopicProps.lean): **C131 violated: layers out of use.** A layer stays active when nobody who uses it is left: here the only subscriber by multicast is gone.
- `C131_violated_set_id` (Verif/Mon/TopicProps.lean): **C131 violated: ids.** An id given with `SetID` is not shown until a sample is sent to somebody.
- `C131_violated_unheard_size` (Verif/Mon/TopicProps.lean): **C131 violated: sizes.** After two samples of different size the size of the first one is shown, if nobody was subscribed any more when the second one was sent; `Send` returned its size all the same.
- `C131_violated_large` (Verif/Mon/TopicProps.lean): **C131 violated: large samples.** The size of a sample of 2 GiB is shown as a negative number.
- `C131_violated_sub_connections` (Verif/Mon/TopicProps.lean): **C131 violated: connections of a subscriber.** A subscriber is shown without connections, however many publishers it is connected to.
- `C131_violated_sub_layer` (Verif/Mon/TopicProps.lean): **C131 violated: layers of a subscriber.** A layer is shown as active although every sample that came in by it was discarded.
- `C131_violated_sub_drops` (Verif/Mon/TopicProps.lean): **C131 violated: lost samples.** Two samples are missing, three are shown as lost.

### C132

- `C132_violated_version` (Verif/Mon/SvcProps.lean): **C132 violated: protocol version.** Servers and clients tell version 1 of their protocol, the monitoring shows 0.
- `C132_violated_no_port` (Verif/Mon/SvcProps.lean): **C132 violated: no port.** A server that has no port for one of its protocols is shown, but without name, process, methods and the port of the other protocol.
- `C132_violated_calls` (Verif/Mon/SvcProps.lean): **C132 violated: calls before a removal.** A method that was executed twice is shown with one call, because its callback was exchanged in between by removing and adding.
- `C132_violated_not_callable` (Verif/Mon/SvcProps.lean): **C132 violated: methods that cannot be called.** A described method without callback is shown like any other and its calls are counted, but no request for it is executed.
- `C132_violated_client_calls` (Verif/Mon/SvcProps.lean): **C132 violated: calls of a client.** One call of a client is shown as two, if two servers offer the service.

### C133

- `C133_violated_moved_from` (Verif/Msg/DynPubProps.lean): **C133 violated: moved objects.** Sending with an object that was moved from is undefined behaviour, although such an object answers that it is not created and a plain publisher object in this state sends nothing.
- `C133_violated_null` (Verif/Msg/DynPubProps.lean): **C133 violated: no message.** A publisher object made with a null pointer is announced, without type, and its first send is undefined.
- `C133_violated_self_move` (Verif/Msg/DynPubProps.lean): **C133 violated: assignment to itself.** A publisher object that is moved to itself is destroyed; it sends nothing any more.
- `C133_violated_created_again` (Verif/Msg/DynPubProps.lean): **C133 violated: type.** Created again, the object sends its message under a type that is not the type of the message, with the id that was set for the publisher before.
- `C133_violated_set_type` (Verif/Msg/DynPubProps.lean): **C133 violated: type set by the application.** The type of any publisher can be set to one that its message does not have.

### C134

- `C134_violated_methods` (Verif/Desc/OverviewProps.lean): **C134 (violated).** Two servers offer a method, one with a described request type and one with a described response type. The overview shows the second registered, the query for the method the first, although nothing changed in between.

### C135

- `C135_violated_log_directory` (Verif/Udp/ReachProps.lean): **C135 (violated).** Without the directory of the log files a process whose log goes to a file as well neither sends nor receives log messages by UDP, whatever is configured for UDP.
- `C135_violated_loopback` (Verif/Udp/ReachProps.lean): **C135 (violated).** Loopback is switched off, but with the network disabled the sender's own subscribers still receive its samples: the option is not set on sockets in broadcast mode, and broadcasts would ignore it.
- `C135_violated_local_only` (Verif/Udp/ReachProps.lean): **C135 (violated).** On Linux a process with the network disabled receives samples of other hosts as soon as another process of its host, with the network enabled, subscribes to the topic.
- `C135_violated_ports` (Verif/Udp/ReachProps.lean): **C135 (violated).** Processes with different port settings are not separate: with ports 14000 and 14002 the samples of the first are given to the registration of the second.

## Reading the claims

- "proved" claims hold for all inputs and executions the model admits, under the conditions written
  in the English statement. "partial" claims keep the full English statement; the note in
  `MANIFEST.json` says what is missing, and where the code contradicts the statement the negation is
  proved (section above).
- Helper lemmas used by a claim are not listed in the manifest. Only theorems named `Cxx_...` are.

## Seeded faults

`seeded/LOG.jsonl` records one line per attempted wrong program: a definition of the model is edited in
a scratch copy so that it breaks a claim, and the project is rebuilt. `theorems_failed` lists the
theorems that no longer compile. A failing proof does not by itself show that the statement is false of
the edited program; the edits were chosen so that a claim is broken, except for a few edits that turned
out to be equivalent (redundant check removed, idempotent call removed), which are marked by their
description. Faults that no theorem noticed led to new or stronger theorems, named in
`theorems_tightened`.

## What is not modelled

Windows and npcap variants, the text syntax of YAML (yaml-cpp is trusted: the model starts at the node
tree), time plugins themselves (the time gate is), the OS queries of `ecal_process.cpp`, floating point rounding, memory allocation failure,
performance.
