{"id": "C01", "title": "Recently refreshed entities never expire", "statement": "An entity (topic, process, service, connection) whose registration was seen less than the expiration timeout ago is still reported: looking at the expiring table at time t never removes a key last refreshed at or after t - timeout.", "quantifier": "every key type, every timeout, every finite history of insert / access / erase / clear / expire operations at non-decreasing clock values", "why_tests_cant": "depends on the order of the internal access list after arbitrarily long operation histories", "anchors": ["ecal/core/src/util/ecal_expmap.h: CExpirationMap::operator[], insert, erase_expired, erase, clear"]}
{"id": "C02", "title": "Silent entities disappear at the next look", "statement": "After an expiry pass at time t no key is left whose last refresh is older than t - timeout, and the keys reported as expired are exactly the keys that were removed, each once.", "quantifier": "every history as in C01", "why_tests_cant": "needs sortedness of the access list for every history", "anchors": ["ecal/core/src/util/ecal_expmap.h: CExpirationMap::erase_expired"]}
{"id": "C03", "title": "The shared event ring keeps exactly the newest events", "statement": "After any sequence of push, pop and reset the ring buffer used for registration broadcast holds the newest min(n, capacity) not yet popped events; iterating visits them from newest to oldest and nothing else; pop on an empty ring is an error and changes nothing.", "quantifier": "every capacity >= 1, every element type, every operation sequence of any length", "why_tests_cant": "wrap-around index arithmetic over unbounded histories", "anchors": ["ecal/core/src/registration/shm/relocatable_circular_queue.h: RelocatableCircularQueue"]}
{"id": "C04", "title": "Registration events reach every other process exactly once", "statement": "A process that polls the broadcast channel gets every event another process sent since its previous poll exactly once, newest first, provided the ring did not overflow, the event is younger than the timeout and clock values are strictly increasing.", "quantifier": "every number of processes, every interleaving of sends, polls and flushes, every capacity", "why_tests_cant": "depends on interleavings of several processes over an unbounded history", "anchors": ["ecal/core/src/registration/shm/ecal_memfile_broadcast.cpp: SendEvent, ReceiveEvents, FlushLocalEventQueue"]}
{"id": "C05", "title": "A process does not see its own registration events unless loopback is on", "statement": "Polling without loopback never returns an event sent by the polling process itself; with loopback it returns them like all others.", "quantifier": "every history of the channel, every process", "why_tests_cant": "interleavings", "anchors": ["ecal/core/src/registration/shm/ecal_memfile_broadcast.cpp: ReceiveEvents"]}
{"id": "C06", "title": "A subscriber delivers each published sample at most once", "statement": "However a sample is duplicated or interleaved over several transport layers, a subscriber hands each (publisher, send counter) pair to the application at most once.", "quantifier": "every finite arrival sequence of samples from any number of publishers over any layers, every layer configuration; out-of-order dropping enabled", "why_tests_cant": "needs all interleavings and unbounded distance between duplicates (the internal duplicate window is only 64 deep)", "anchors": ["ecal/core/src/readwrite/ecal_reader.cpp: CDataReader::ApplySample, CheckMessageClock"]}
{"id": "C07", "title": "Samples of one publisher are delivered in send order", "statement": "With out-of-order dropping enabled the send counters of the samples a subscriber delivers from one publisher are strictly increasing.", "quantifier": "every arrival order", "why_tests_cant": "all permutations and losses", "anchors": ["ecal/core/src/readwrite/ecal_reader.cpp: CDataReader::CheckMessageClock"]}
{"id": "C08", "title": "Drop statistics count the lost messages", "statement": "The message-drop counter of a subscriber equals the number of samples of its publishers that were skipped.", "quantifier": "every arrival sequence", "why_tests_cant": "needs every gap pattern", "anchors": ["ecal/core/src/readwrite/ecal_reader.cpp: CDataReader::CheckMessageClock"]}
{"id": "C09", "title": "Sample-id filter", "statement": "If a subscriber restricts the accepted ids, only samples with one of these ids are delivered; with an empty restriction every id is accepted. Filtered samples leave no trace in delivery of the others.", "quantifier": "every id set, every arrival sequence", "why_tests_cant": "all id/interleaving combinations", "anchors": ["ecal/core/src/readwrite/ecal_reader.cpp: CDataReader::ApplySample, SetID"]}
{"id": "C10", "title": "Polling receive returns the newest sample once", "statement": "A polling subscriber gets, at each successful receive, the payload and send time of the newest sample delivered since the last receive, never the same sample twice, and never data mixed from two samples.", "quantifier": "every interleaving of arrivals and receive calls", "why_tests_cant": "interleavings", "anchors": ["ecal/core/src/readwrite/ecal_reader.cpp: CDataReader::Read, ApplySample"]}
{"id": "C11", "title": "A disabled layer never delivers", "statement": "Samples arriving on a transport layer the subscriber has disabled are never delivered and do not influence later deliveries.", "quantifier": "every arrival sequence, every layer configuration", "why_tests_cant": "interleavings", "anchors": ["ecal/core/src/readwrite/ecal_reader.cpp: CDataReader::ApplySample"]}
{"id": "C12", "title": "Transport layer choice", "statement": "For a publisher/subscriber pair the transport layer started is the first one in the configured priority list (local list for same host, remote list otherwise) that both sides have enabled; if there is none, no layer is started; the choice does not depend on anything else.", "quantifier": "every priority list, every pair of enabled-layer sets, every subscription history", "why_tests_cant": "all combinations of configuration and history", "anchors": ["ecal/core/src/readwrite/ecal_writer.cpp: CDataWriter::DetermineTransportLayer2Start, ApplySubscription"]}
{"id": "C13", "title": "Publisher connection events are paired", "statement": "The publisher's 'connected' and 'disconnected' notifications alternate, starting with 'connected'; after each history the last one tells whether there is a subscriber.", "quantifier": "every history of subscriber registrations, unregistrations and expirations", "why_tests_cant": "all histories", "anchors": ["ecal/core/src/readwrite/ecal_writer.cpp: FireConnectEvent, FireDisconnectEvent, ApplySubscription, RemoveSubscription, CheckConnections"]}
{"id": "C14", "title": "Subscriber connection events are paired", "statement": "Same as C13 for subscribers and publishers they are connected to.", "quantifier": "every history of publisher registrations, unregistrations and expirations", "why_tests_cant": "all histories", "anchors": ["ecal/core/src/readwrite/ecal_reader.cpp: FireConnectEvent, FireDisconnectEvent, ApplyPublication, RemovePublication, CheckConnections"]}
{"id": "C15", "title": "Every send gets its own send counter", "statement": "Each send call (with or without subscribers) increases the publisher's send counter by exactly one; no two sent samples carry the same counter or the same sample hash.", "quantifier": "every sequence of sends and subscription changes shorter than 2^63", "why_tests_cant": "unbounded histories", "anchors": ["ecal/core/src/readwrite/ecal_writer.cpp: Write, RefreshSendCounter, PrepareWrite, SSndHash", "ecal/core/src/pubsub/ecal_publisher.cpp: Send"]}
{"id": "C16", "title": "Registration filter", "statement": "A registration is taken over exactly if it comes from the own host group, or network mode is on; registrations of the own process only with loopback.", "quantifier": "every sample and configuration", "why_tests_cant": "all combinations of host, group, process and mode; equality of identifiers across hosts", "anchors": ["ecal/core/src/registration/ecal_registration_sample_applier.cpp: AcceptRegistrationSample, IsHostGroupMember, IsSameProcess"]}
{"id": "C17", "title": "Publisher/subscriber matching follows registrations", "statement": "A publisher counts as its subscribers exactly the registered, not unregistered and not expired subscribers of its own topic; a subscriber counts the publishers of its topic that announced a connection to its side.", "quantifier": "every history of registrations for any number of topics and entities", "why_tests_cant": "unbounded histories over several publishers/subscribers", "anchors": ["ecal/core/src/pubsub/ecal_pubgate.cpp: ApplySubRegistration, ApplySubUnregistration", "ecal/core/src/readwrite/ecal_writer.cpp: ApplySubscription"]}
{"id": "C18", "title": "Shared memory returns exactly what was written", "statement": "After a successful write of n bytes a reader obtains exactly these n bytes; shorter writes after longer ones never expose stale bytes; sizes beyond capacity are refused without changing the content.", "quantifier": "every content sequence, every length, every capacity", "why_tests_cant": "all lengths and histories", "anchors": ["ecal/core/src/io/shm/ecal_memfile.cpp: CMemoryFile::WriteBuffer, WritePayload, Read, GetReadAddress, GetWriteAddress"]}
{"id": "C19", "title": "A crash while writing never yields a torn sample", "statement": "If a writer dies at any point of a write, the next reader either gets the previous complete sample or nothing, never a mixture (recoverable mutex in use).", "quantifier": "every crash point, every pair of contents", "why_tests_cant": "crash points inside a copy cannot be scheduled by tests", "anchors": ["ecal/core/src/io/shm/ecal_memfile.cpp: GetAccess (WasRecovered)", "ecal/core/src/io/shm/ecal_memfile_sync.cpp: Write", "ecal/core/src/io/mtx/linux/ecal_named_mutex_robust_clocklock_impl.cpp"]}
{"id": "C20", "title": "Shared memory observer forwards each sample at most once, in order", "statement": "The observer of one shared memory channel forwards contents with strictly increasing send counters, whatever the signals, missed signals and spurious wake-ups.", "quantifier": "every interleaving of writes and observer cycles", "why_tests_cant": "interleavings", "anchors": ["ecal/core/src/io/shm/ecal_memfile_pool.cpp: CMemFileObserver::Observe"]}
{"id": "C21", "title": "Shared memory segments live as long as someone uses them", "statement": "A segment stays mapped while any user holds it; the last release unmaps it once, and removes it iff one of the releases asked for removal.", "quantifier": "every sequence of open/close by any number of users", "why_tests_cant": "histories", "anchors": ["ecal/core/src/io/shm/ecal_memfile_db.cpp: CMemFileMap::AddFile, RemoveFile, CheckFileSize"]}
{"id": "C22", "title": "Topic to multicast group mapping stays in the configured network", "statement": "Every topic is mapped to an address with the configured network part, deterministically, and never onto the registration address.", "quantifier": "every topic name, every base address, every mask", "why_tests_cant": "2^32 addresses x all names", "anchors": ["ecal/core/src/io/udp/ecal_udp_topic2mcast.h: UDP::V2::topic2mcast, parse_ipv4, serialize_ipv4"]}
{"id": "C23", "title": "UDP sample framing", "statement": "A sample sent by UDP is received with the same topic name and payload; a datagram not produced by the sender is either decoded to the name/payload slices it declares or rejected, never read beyond its end.", "quantifier": "every name, payload and every byte string", "why_tests_cant": "all byte strings", "anchors": ["ecal/core/src/io/udp/ecal_udp_sample_sender.cpp: Send", "ecal/core/src/io/udp/ecal_udp_sample_receiver_asio.cpp: Receive"]}
{"id": "C24", "title": "A malformed datagram does not stop reception", "statement": "After receiving any datagram the receiver keeps receiving later ones.", "quantifier": "every sequence of datagrams", "why_tests_cant": "needs arbitrary byte strings from the network", "anchors": ["ecal/core/src/io/udp/ecal_udp_sample_receiver_asio.cpp: CSampleReceiverAsio::Receive"]}
{"id": "C25", "title": "Multicast groups are joined exactly while subscribed", "statement": "The UDP layer is a member of a topic's group exactly while at least one subscription maps to that group.", "quantifier": "every sequence of subscribe/unsubscribe over any topics (including topics sharing one group)", "why_tests_cant": "histories and hash collisions", "anchors": ["ecal/core/src/readwrite/udp/ecal_reader_udp.cpp: CUDPReaderLayer::AddSubscription, RemSubscription"]}
{"id": "C26", "title": "TCP reception stays alive while a subscriber of the topic exists", "statement": "Removing one subscriber of a topic does not stop TCP reception for the remaining subscribers of that topic.", "quantifier": "every sequence of subscribe/unsubscribe", "why_tests_cant": "histories", "anchors": ["ecal/core/src/readwrite/tcp/ecal_reader_tcp.cpp: CTCPReaderLayer::AddSubscription, RemSubscription"]}
{"id": "C27", "title": "Payload sample serialisation round-trips", "statement": "Deserialising a serialised payload sample gives back the same topic name, id, clock, time, hash and payload bytes.", "quantifier": "every sample with byte strings below 2^32 bytes", "why_tests_cant": "all byte strings / integers", "anchors": ["ecal/core/src/serialization/ecal_serialize_sample_payload.cpp", "ecal/core/src/serialization/ecal_serialize_common.cpp", "ecal/core/src/serialization/nanopb/nanopb/pb_encode.c", "ecal/core/src/serialization/nanopb/nanopb/pb_decode.c"]}
{"id": "C28", "title": "Registration sample serialisation round-trips", "statement": "Deserialising a serialised registration (or a list of registrations) yields the same registration in every transmitted field.", "quantifier": "every registration sample", "why_tests_cant": "all nested repeated fields", "anchors": ["ecal/core/src/serialization/ecal_serialize_sample_registration.cpp"]}
{"id": "C29", "title": "Service request/response serialisation round-trips", "statement": "A service request/response decoded on the other side equals the one encoded.", "quantifier": "every request/response", "why_tests_cant": "all byte strings", "anchors": ["ecal/core/src/serialization/ecal_serialize_service.cpp"]}
{"id": "C30", "title": "Log message serialisation round-trips", "statement": "A log message decoded by a receiver equals the one sent.", "quantifier": "every log message / list", "why_tests_cant": "all byte strings", "anchors": ["ecal/core/src/serialization/ecal_serialize_logging.cpp"]}
{"id": "C31", "title": "TCP payload is 8-byte aligned", "statement": "The payload of a TCP publication always starts at a multiple of 8 bytes after the message start and the declared header size leads the receiver exactly to it.", "quantifier": "every topic name, id, clock, time, hash", "why_tests_cant": "all header sizes", "anchors": ["ecal/core/src/readwrite/tcp/ecal_writer_tcp.cpp: Write", "ecal/core/src/readwrite/tcp/ecal_reader_tcp.cpp: OnTcpMessage"]}
{"id": "C32", "title": "Service messages survive TCP segmentation", "statement": "However the byte stream of protocol version 1 is cut into segments, the receiver reassembles exactly the sequence of messages sent.", "quantifier": "every message sequence, every segmentation, every header extension size", "why_tests_cant": "all segmentations", "anchors": ["ecal/service/ecal_service/src/protocol_v1.cpp", "ecal/service/ecal_service/src/protocol_layout.h"]}
{"id": "C33", "title": "Protocol version negotiation", "statement": "Client and server agree on the highest common protocol version, or the connection fails.", "quantifier": "every pair of version ranges", "why_tests_cant": "ranges beyond today's constants", "anchors": ["ecal/service/ecal_service/src/server_session_impl_v1.cpp: receive_handshake_request", "ecal/service/ecal_service/src/client_session_impl_v1.cpp: receive_handshake_response"]}
{"id": "C34", "title": "Every service call is answered exactly once", "statement": "Each accepted asynchronous call gets its response callback invoked exactly once: with a response, or with an error when the connection fails or is closed.", "quantifier": "every interleaving of calls, network events, errors and stop", "why_tests_cant": "interleavings and failure points", "anchors": ["ecal/service/ecal_service/src/client_session_impl_v1.cpp"]}
{"id": "C35", "title": "Responses are matched to their calls", "statement": "The n-th successful response of a connection is delivered to the n-th call sent; a response never reaches another call's callback.", "quantifier": "every interleaving", "why_tests_cant": "interleavings", "anchors": ["ecal/service/ecal_service/src/client_session_impl_v1.cpp", "ecal/service/ecal_service/src/server_session_impl_v1.cpp"]}
{"id": "C36", "title": "The server answers requests one by one in order", "statement": "A server session runs the service callback once per received request in arrival order, and sends exactly one response per request before handling the next one.", "quantifier": "every request stream and failure point", "why_tests_cant": "interleavings", "anchors": ["ecal/service/ecal_service/src/server_session_impl_v1.cpp"]}
{"id": "C37", "title": "Legacy protocol requests are not split", "statement": "A version 0 request arrives at the service callback as one message independent of TCP segmentation.", "quantifier": "every segmentation", "why_tests_cant": "segmentation depends on the network", "anchors": ["ecal/service/ecal_service/src/server_session_impl_v0.cpp: handle_read"]}
{"id": "C38", "title": "Blocking service calls return consistent results", "statement": "A blocking call returns one entry per addressed server, each holding that server's own answer or a timeout; nothing arriving later changes the result; it reports success iff at least one server executed the method.", "quantifier": "every number of servers, every arrival order and timing of answers, every timeout", "why_tests_cant": "races between answers and timeout", "anchors": ["ecal/core/src/service/ecal_service_client_impl.cpp: CallBlocking, Call"]}
{"id": "C39", "title": "Method dispatch", "statement": "A request is executed by exactly the callback registered for its method name and counted once; an unknown method or undecodable request is answered with 'failed' without running any callback.", "quantifier": "every request, every history of method (un)registrations", "why_tests_cant": "histories", "anchors": ["ecal/core/src/service/ecal_service_server_impl.cpp: RequestCallback, AddMethodCallback, AddDescription, RemMethodCallback"]}
{"id": "C40", "title": "A client reconnects to a restarted connection", "statement": "As long as a server keeps announcing itself, a client whose connection to it failed gets a working connection again; connect and disconnect notifications alternate per server.", "quantifier": "every history of announcements and connection failures", "why_tests_cant": "histories", "anchors": ["ecal/core/src/service/ecal_service_client_impl.cpp: RegisterService, CheckForNewServices, CheckForDisconnectedServices"]}
{"id": "C41", "title": "Server connection notifications reflect reality", "statement": "The server's connect/disconnect notifications alternate, and after all clients are gone the last notification is 'disconnected'.", "quantifier": "every interleaving of accepting, handshake, failure of any number of clients", "why_tests_cant": "interleavings", "anchors": ["ecal/core/src/service/ecal_service_server_impl.cpp: EventCallback", "ecal/service/ecal_service/src/server_impl.cpp: get_connection_count"]}
{"id": "C42", "title": "Description queries list exactly the live entities", "statement": "The publishers/subscribers/services/clients listed with their type descriptions are exactly those registered, not unregistered and refreshed within the timeout, with the latest description.", "quantifier": "every registration history", "why_tests_cant": "histories", "anchors": ["ecal/core/src/ecal_descgate.cpp: CDescGate"]}
{"id": "C43", "title": "Best description wins", "statement": "The data type information reported for a topic is that of an entity with the highest description quality among all publishers and subscribers of that topic.", "quantifier": "every set of entities", "why_tests_cant": "all sets and orders", "anchors": ["ecal/core/src/ecal_util.cpp: ReduceQualityTopicIdMap, GetHighestQualityDataTypeInformation, ReduceQualityServiceIdMap"]}
{"id": "C44", "title": "Encoding/type combination", "statement": "Splitting a combined 'encoding:type' string yields the encoding and type it was built from.", "quantifier": "every pair of strings", "why_tests_cant": "all strings", "anchors": ["ecal/core/src/ecal_util.cpp: SplitCombinedTopicType, CombinedTopicEncodingAndType"]}
{"id": "C45", "title": "Monitoring lists every entity separately", "statement": "Two different entities never share a monitoring entry; an entity appears as long as it is registered.", "quantifier": "every set of entities", "why_tests_cant": "adversarial names", "anchors": ["ecal/core/src/monitoring/ecal_monitoring_impl.cpp: RegisterTopic, RegisterProcess, RegisterServer, RegisterClient"]}
{"id": "C46", "title": "Monitoring topic filter", "statement": "A topic is shown iff it matches no exclusion pattern and (no inclusion pattern is given or it matches one); switching filters on uses the currently configured patterns.", "quantifier": "every pattern list, every history of filter changes", "why_tests_cant": "histories", "anchors": ["ecal/core/src/monitoring/ecal_monitoring_impl.cpp: SetFilterState, Tokenize, RegisterTopic"]}
{"id": "C47", "title": "Inter-process lock gives mutual exclusion", "statement": "At no time do two holders own the same named lock.", "quantifier": "every interleaving of lock, unlock, timeouts, object destruction and process death", "why_tests_cant": "interleavings and crash points", "anchors": ["ecal/core/src/io/mtx/linux/ecal_named_mutex_impl.cpp", "ecal/core/src/io/mtx/linux/ecal_named_mutex_robust_clocklock_impl.cpp"]}
{"id": "C48", "title": "Inter-process events are neither lost nor duplicated", "statement": "A set event releases exactly one wait; a wait that reports success consumed a set; a timed-out wait consumes nothing.", "quantifier": "every interleaving of set and wait", "why_tests_cant": "interleavings", "anchors": ["ecal/core/src/ecal_event.cpp: named_event_set, named_event_wait, named_event_trywait, CEvent"]}
{"id": "C49", "title": "A shutdown request is seen", "statement": "After another process requested shutdown, eCAL::Ok() returns false from then on.", "quantifier": "every interleaving of requests and Ok() calls", "why_tests_cant": "interleavings", "anchors": ["ecal/core/src/ecal.cpp: Ok, ShutdownProcEvent", "ecal/core/src/ecal_util.cpp: ShutdownProcess", "ecal/core/src/ecal_event.cpp"]}
{"id": "C50", "title": "Initialize/Finalize nesting", "statement": "eCAL stays initialised until Finalize was called as often as Initialize, and is not initialised afterwards; components requested stay available until then.", "quantifier": "every call sequence", "why_tests_cant": "histories", "anchors": ["ecal/core/src/ecal.cpp: Initialize, Finalize, IsInitialized", "ecal/core/src/ecal_globals.cpp: CGlobals::Initialize, Finalize"]}
{"id": "C51", "title": "Timer callbacks stop with Stop", "statement": "No timer callback starts after Stop returned; a running timer cannot be started twice; restart works.", "quantifier": "every interleaving of Start/Stop and the timer thread", "why_tests_cant": "interleavings", "anchors": ["ecal/core/src/time/ecal_timer.cpp: CTimerImpl"]}
{"id": "C52", "title": "Frequency statistics", "statement": "The reported frequency is the number of ticks divided by the time they span; it drops to zero when no ticks arrive for longer than the reset factor times the expected period.", "quantifier": "every tick history", "why_tests_cant": "histories", "anchors": ["ecal/core/src/util/frequency_calculator.h"]}
{"id": "C53", "title": "Log routing", "statement": "A log message goes exactly to the sinks whose level mask contains its level, and a monitoring client gets each log message it collected exactly once.", "quantifier": "every message/level/mask and every interleaving of logging and fetching", "why_tests_cant": "interleavings", "anchors": ["ecal/core/src/logging/ecal_log_impl.cpp: Log, GetLogging, ApplySample"]}
{"id": "C54", "title": "Unregistrations are sent before shutdown completes", "statement": "An entity unregistered before the process stops its registration is announced as unregistered to the others.", "quantifier": "every interleaving of the sending thread with unregister and stop", "why_tests_cant": "interleavings", "anchors": ["ecal/core/src/registration/ecal_registration_provider.cpp: UnregisterSample, Stop, RegisterSendThread", "ecal/core/src/util/ecal_thread.h: CCallbackThread"]}
{"id": "C55", "title": "One broken announcer does not disturb the others", "statement": "Each poll of the shared memory registration receiver hands over the current registration content of every process that announced an update since the last poll, exactly once, whatever the state of the other processes' payload files.", "quantifier": "every event list, every set of existing payload files and every failure of the access to the broadcast file", "why_tests_cant": "crashed processes and lock timeouts at arbitrary moments", "anchors": ["ecal/core/src/registration/shm/ecal_memfile_broadcast_reader.cpp: CMemoryFileBroadcastReader::Read", "ecal/core/src/registration/shm/ecal_registration_receiver_shm.cpp: CRegistrationReceiverSHM::Receive"]}
{"id": "C57", "title": "'Connected' is told only to known subscribers", "statement": "A subscriber's application is told 'connected' to a publisher only after that publisher knows this subscriber.", "quantifier": "every set of processes, publishers and subscribers and every order of registrations", "why_tests_cant": "needs several processes and a particular order of registration messages", "anchors": ["ecal/core/src/pubsub/ecal_subgate.cpp: CSubGate::ApplyPubRegistration", "ecal/core/src/readwrite/ecal_writer.cpp: CDataWriter::GetRegistration (connections_loc/ext)"]}
{"id": "C58", "title": "Samples are routed to the subscribers of their topic", "statement": "Every subscriber is offered exactly the samples of its own topic that arrive during its life, each once and in order of arrival, whatever other subscribers and topics exist; the reported result tells whether a subscriber took it.", "quantifier": "every history of creations, destructions and arrivals", "why_tests_cant": "unbounded number of subscribers, topics and arrivals", "anchors": ["ecal/core/src/pubsub/ecal_subgate.cpp: CSubGate::ApplySample, Register, Unregister"]}
{"id": "C56", "title": "All layers carry the payload given to Send", "statement": "Every copy of a sample handed to a transport layer contains exactly the payload passed to Send, whatever layers are started meanwhile.", "quantifier": "every interleaving of sends with the start of transport layers by the registration thread", "why_tests_cant": "needs a layer start at a particular moment inside a send", "anchors": ["ecal/core/src/readwrite/ecal_writer.cpp: CDataWriter::Write, StartUdpLayer, StartTcpLayer"]}
{"id": "C59", "title": "End-to-end delivery", "statement": "The messages a subscriber delivers from a publisher form a subsequence of the messages sent, with payload, time and id intact, whatever the transport loses, repeats or reorders; if nothing is lost, everything sent to known subscribers is delivered exactly once.", "quantifier": "every send history, every transport behaviour on the copies, every mixture with other publishers", "why_tests_cant": "composition of publisher, arbitrary transport and subscriber over unbounded histories", "anchors": ["ecal/core/src/pubsub/ecal_publisher.cpp: CPublisher::Send", "ecal/core/src/readwrite/ecal_writer.cpp: CDataWriter::Write", "ecal/core/src/readwrite/ecal_reader.cpp: CDataReader::ApplySample"]}
{"id": "C60", "title": "Unregistrations are final", "statement": "After the unregistration of an entity has been sent, no registration of the same entity is sent any more.", "quantifier": "every interleaving of creation, re-registration and destruction of entities with the registration thread", "why_tests_cant": "needs a destruction between collecting and sending the registrations", "anchors": ["ecal/core/src/registration/ecal_registration_provider.cpp: RegisterSample, UnregisterSample, RegisterSendThread", "ecal/core/src/pubsub/ecal_publisher.cpp: CPublisher::Destroy"]}
{"id": "C61", "title": "Subscribers may be created from several threads", "statement": "Subscribers of one topic created by different threads at the same time all keep UDP reception while they exist.", "quantifier": "every interleaving of concurrent subscriber creations and later destructions", "why_tests_cant": "needs an interleaving inside the counter increment", "anchors": ["ecal/core/src/readwrite/udp/ecal_reader_udp.cpp: CUDPReaderLayer::AddSubscription, RemSubscription", "ecal/core/src/readwrite/ecal_reader.cpp: CDataReader::StartTransportLayer"]}
{"id": "C62", "title": "Each received registration is applied once", "statement": "Registrations received through shared memory are applied once each, in the order sent.", "quantifier": "every batch of registration messages found by one poll of the receiver", "why_tests_cant": "needs several messages in one poll and entities that change in between", "anchors": ["ecal/core/src/registration/shm/ecal_registration_receiver_shm.cpp: CRegistrationReceiverSHM::Receive", "ecal/core/src/serialization/ecal_serialize_sample_registration.cpp: Buffer2RegistrationListStruct"]}
{"id": "C63", "title": "A monitoring snapshot survives serialisation", "statement": "The serialised form of a monitoring query decodes to exactly the processes, publishers, subscribers, servers and clients the structured query returns for the same choice of entities, in the same order and with every field.", "quantifier": "every content of the monitoring tables, every choice of entities, every target structure", "why_tests_cant": "unbounded lists, all field values, 32 combinations of entity kinds", "anchors": ["ecal/core/src/serialization/ecal_serialize_monitoring.cpp: SerializeToBuffer, DeserializeFromBuffer", "ecal/core/src/monitoring/ecal_monitoring_impl.cpp: CMonitoringImpl::GetMonitoring"]}
{"id": "C64", "title": "A configuration file sets exactly the settings it names", "statement": "After a configuration file was read, each setting has the value the file names under its documented key, or its documented default if the file does not name it; values of the wrong form make the loading fail.", "quantifier": "every document, every setting, every value", "why_tests_cant": "about sixty settings in nested sections and arbitrary partial files", "anchors": ["ecal/core/src/config/configuration_to_yaml.cpp: convert<...>::decode", "ecal/core/src/config/configuration_reader.cpp: YamlFileToConfig, YamlStringToConfig"]}
{"id": "C65", "title": "Writing and merging keep the other settings", "statement": "Writing a configuration to a file and reading it back gives the same settings; merging a file into a configuration changes exactly the settings the file names.", "quantifier": "every configuration, every file, every setting", "why_tests_cant": "needs all combinations of configured values and partial files", "anchors": ["ecal/core/src/config/configuration_to_yaml.cpp: convert<...>::encode", "ecal/core/src/config/configuration_reader.cpp: ConfigToYamlFile, MergeYamlNodes, MergeYamlIntoConfiguration"]}
{"id": "C66", "title": "A dumped configuration can be loaded", "statement": "The configuration text an application dumps can be loaded again and gives the same settings.", "quantifier": "every configuration, including arbitrary texts in the filters and names", "why_tests_cant": "arbitrary texts, all settings at once", "anchors": ["ecal/core/src/config/default_configuration.cpp: getConfigAsYamlSS, dumpConfigToFile, quoteString, logToArray", "ecal/core/src/config/configuration_reader.cpp: YamlFileToConfig"]}
{"id": "C67", "title": "An acknowledged send waits for the processing of that sample", "statement": "With an acknowledge timeout, a send over shared memory that returns has been processed completely by every connected process that was not reported late; the total waiting time of one send is at most the timeout.", "quantifier": "every number of processes, every interleaving of the sender with the receiving threads of the processes", "why_tests_cant": "interleavings of several processes over several samples, with lost and late acknowledgements", "anchors": ["ecal/core/src/io/shm/ecal_memfile_sync.cpp: CSyncMemoryFile::SyncContent, Connect", "ecal/core/src/io/shm/ecal_memfile_pool.cpp: CMemFileObserver::Observe"]}
{"id": "C68", "title": "Growing samples keep the connections of a shared memory publisher", "statement": "Samples of any sizes can be sent in any order: whenever a memory file has to be replaced by a larger or an unlocked one, the sample fits, all subscribed processes stay connected, and the new file is announced.", "quantifier": "every sequence of subscriptions and sends, every number of buffers, every pattern of failing creations and locks", "why_tests_cant": "needs failures of the operating system and long histories", "anchors": ["ecal/core/src/io/shm/ecal_memfile_sync.cpp: CSyncMemoryFile::CheckSize, Write, Create, Recreate, Destroy, Connect", "ecal/core/src/readwrite/shm/ecal_writer_shm.cpp: CDataWriterSHM::PrepareWrite, Write, SetBufferCount, ApplySubscription", "ecal/core/src/readwrite/ecal_writer.cpp: CDataWriter::Write"]}
{"id": "C69", "title": "Address and number settings mean what they say", "statement": "A configuration accepts exactly texts that are IPv4 addresses (other than the broadcast, loopback and any address) and numbers within their bounds and steps; an accepted address is used as the number it denotes; a rejected assignment leaves the old value.", "quantifier": "every text, every number, every bound and step", "why_tests_cant": "the accepted language is infinite and goes through regular expressions", "anchors": ["ecal/core/src/types/ecal_custom_data_types.cpp: IpAddressV4", "ecal/core/include/ecal/types/ecal_custom_data_types.h: ConstrainedInteger", "ecal/core/src/io/udp/ecal_udp_topic2mcast.h: parse_ipv4"]}
{"id": "C70", "title": "Background threads run their work one at a time and stop", "statement": "The work of a background thread never runs twice at the same time, a trigger is followed by a complete run of the work, and after stopping the work is never run again.", "quantifier": "every interleaving of start, trigger, stop, timeouts and the steps of the thread", "why_tests_cant": "interleavings between threads cannot be enumerated by tests", "anchors": ["ecal/core/src/util/ecal_thread.h: CCallbackThread::start, stop, trigger, callbackFunction"]}
{"id": "C71", "title": "Splitting and joining texts loses nothing", "statement": "Splitting a text gives its non-empty parts between delimiters in order, joining non-empty clean parts and splitting again gives the parts back, and splitting a command line gives the quoted and unquoted words.", "quantifier": "every text, every set of delimiters, every list of parts", "why_tests_cant": "infinite input space with escapes and quotes", "anchors": ["lib/ecal_utils/include/ecal_utils/string.h: Split, SplitQuotedString, Join"]}
{"id": "C72", "title": "Editing texts: replace, trim, centre, escape, compare", "statement": "Replacing replaces exactly the leftmost non-overlapping occurrences, trimming removes exactly the white space at both ends, centring gives the requested length with balanced padding, escaping is reversible and leaves no markup, comparing without case is equality up to the case of letters.", "quantifier": "every text and every parameter", "why_tests_cant": "infinite input space", "anchors": ["lib/ecal_utils/include/ecal_utils/string.h: Replace, Trim, CenterString, htmlEscape, Icompare, FindCaseInsensitive"]}
{"id": "C73", "title": "Cleaned, absolute and relative paths name the same file", "statement": "Cleaning a path removes '.', '..' and double separators without changing the file it names and is idempotent; an absolute path names what the path names from the working directory; a relative path leads from the base to the path; two paths are equal exactly if they name the same file; the file name is what follows the last separator.", "quantifier": "every path text, every working directory, every base", "why_tests_cant": "infinite input space; the wrong cases ('./..', the root as working directory, one path inside the other) are corner cases", "anchors": ["lib/ecal_utils/src/filesystem.cpp: CleanPath, CleanPathComponentList, AbsolutePath, RelativePath, IsEqual, FileName, BaseName, GetAbsoluteRoot"]}
{"id": "C74", "title": "Synchronised time comes from the configured source", "statement": "Once a time plug-in is started the time functions return its time while it reports no error and the system time otherwise; waiting lasts as long as asked; every initialised plug-in is finalised exactly once; no request ever calls a function that a plug-in does not have.", "quantifier": "every sequence of starts, stops and requests, every set of exported functions and every answer of the plug-in, both builds", "why_tests_cant": "plug-ins are external and their answers arbitrary; the wrong states need particular sequences or an incomplete plug-in", "anchors": ["ecal/core/src/time/ecal_timegate.cpp: CTimeGate", "ecal/core/src/time/ecal_time.cpp: eCAL::Time", "ecal/core/src/registration/ecal_process_registration.cpp", "ecal/core/src/ecal_process.cpp: DumpConfig", "ecal/core/CMakeLists.txt: ECAL_CORE_FEATURES"]}
{"id": "C75", "title": "All service clients and servers are managed and stopped together", "statement": "A manager counts exactly the objects created by it and not yet deleted; its stop reaches each of them and nothing is created afterwards; a process has one manager of each kind until it is shut down, and the shutdown returns once the running callbacks have returned.", "quantifier": "every interleaving of creating, deleting, stopping and callbacks, any number of objects", "why_tests_cant": "the wrong outcomes need a creation or a callback at a particular moment of the shutdown", "anchors": ["ecal/service/ecal_service/src/client_manager.cpp", "ecal/service/ecal_service/src/server_manager.cpp", "ecal/core/src/service/ecal_service_singleton_manager.cpp: get_client_manager, get_server_manager, stop, reset"]}
{"id": "C76", "title": "A server serves every client that connects, and none after it was stopped", "statement": "As long as a server is not stopped every client that connects gets a session; after the stop no session runs.", "quantifier": "every interleaving of connections, accept results, handlers, disconnects and the stop", "why_tests_cant": "accept errors and the moment between an accepted connection and its handler cannot be forced in a test", "anchors": ["ecal/service/ecal_service/src/server_impl.cpp: start_accept, wait_for_next_client, stop"]}
{"id": "C77", "title": "Every service call is answered, also calls made by service callbacks", "statement": "When callbacks of services call further services of the process, and no new calls are made from outside, every call is answered and every caller gets its response.", "quantifier": "every number and nesting of calls, every order in which the threads work", "why_tests_cant": "the wrong outcome needs several callbacks blocked at the same time", "anchors": ["ecal/core/src/service/ecal_service_singleton_manager.h: num_io_threads", "ecal/core/src/service/ecal_service_client_impl.cpp: CallBlocking", "ecal/service/ecal_service/src/server_session_impl_v1.cpp: receive_service_request"]}
{"id": "C78", "title": "The C interface hands over buffers exactly", "statement": "A received message, a text or a response is copied completely into the buffer of the caller or into an allocated block, its length is returned, nothing else is written, and a message is lost only if the caller is told.", "quantifier": "every message, every buffer and length, with and without memory", "why_tests_cant": "sizes from 2 GB, empty messages and zero lengths are not tried by tests", "anchors": ["ecal/core/src/cimpl/ecal_common_cimpl.cpp: CopyBuffer", "ecal/core/src/cimpl/ecal_subscriber_cimpl.cpp: eCAL_Sub_Receive_ToBuffer, eCAL_Sub_Receive_Alloc, eCAL_Sub_Receive_Buffer_Alloc, eCAL_Sub_SetID", "ecal/core/src/cimpl/ecal_client_cimpl.cpp: eCAL_Client_Call_Wait", "ecal/core/include/ecal/ecalc_types.h: ECAL_ALLOCATE_4ME"]}
{"id": "C79", "title": "Method callbacks of the C interface are exclusive and are all served", "statement": "No two method callbacks registered through the C interface run at the same time, and every call of such a method is answered.", "quantifier": "every interleaving of calls, callbacks and nested calls", "why_tests_cant": "the deadlock needs a callback that calls a service of its own process", "anchors": ["ecal/core/src/cimpl/ecal_server_cimpl.cpp: g_method_callback_mtx, g_method_callback"]}
{"id": "C80", "title": "A waiting receive returns with the next sample, at its time limit, or when the subscriber ends", "statement": "A blocking receive returns as soon as a sample is there, after its time limit, or when the subscriber is ended; each sample is returned by exactly one call; no wake-up is lost.", "quantifier": "every number of receiving threads, every interleaving of calls, samples, spurious wake-ups, time limits, stop and destruction", "why_tests_cant": "lost wake-ups and the destruction under a waiting thread depend on the interleaving", "anchors": ["ecal/core/src/readwrite/ecal_reader.cpp: Read, ApplySample, Stop", "ecal/core/src/pubsub/ecal_subscriber.cpp: Destroy, ReceiveBuffer"]}
{"id": "C81", "title": "Calls of the library from its callbacks do not deadlock", "statement": "A callback may call any function of publishers and subscribers, and any number of threads may use them at the same time, without a deadlock; every call and every callback returns.", "quantifier": "every number of threads, publishers and subscribers, every callback made of API calls, every interleaving, with and without preference of writers", "why_tests_cant": "a deadlock needs a particular interleaving of several threads", "anchors": ["ecal/core/src/readwrite/ecal_reader.cpp: ApplySample, ApplyPublication, CheckConnections, FireConnectEvent, FireDisconnectEvent, Stop", "ecal/core/src/readwrite/ecal_writer.cpp: ApplySubscription, CheckConnections, FireConnectEvent, FireDisconnectEvent, Stop", "ecal/core/src/pubsub/ecal_subgate.cpp", "ecal/core/src/pubsub/ecal_pubgate.cpp", "ecal/core/src/registration/ecal_registration_sample_applier.cpp: ApplySample", "ecal/core/src/registration/ecal_registration_provider.cpp: RegisterSendThread", "ecal/core/src/ecal_globals.cpp: Finalize"]}
{"id": "C82", "title": "Command lines are taken apart as they were put together", "statement": "Taking apart the command line made from a list of arguments gives the same list; splitting a command line loses nothing but white space, and the arguments of the parts are the arguments of the line.", "quantifier": "every list of arguments and every text of bytes, every maximum number of parts", "why_tests_cant": "quotes, backslashes and white space can be combined without end", "anchors": ["lib/ecal_utils/include/ecal_utils/ecal_utils.h: splitCommandLine, ToArgv, ToCommandLine", "ecal/core/src/ecal_process.cpp: GetProcessParameter, StartProcess"]}
{"id": "C83", "title": "The result of starting a process tells whether it was started", "statement": "Starting a process returns its process id exactly if the program was executed, returns 0 otherwise, leaves no files behind, always returns, and waits for the end of the program if asked to.", "quantifier": "every interleaving of the calling process, its child and grandchild, every failure of the system calls, time limits and signals", "why_tests_cant": "the protocol between three processes depends on their speed and on rare failures", "anchors": ["ecal/core/src/ecal_process.cpp: StartProcess"]}
{"id": "C84", "title": "Finalising never pulls a part of the library away from a running thread", "statement": "While Finalize runs, no background thread and no callback that runs on one accesses a part of the library that was already destroyed, and Finalize ends when the running callbacks end.", "quantifier": "every interleaving of Finalize with any number of threads of each kind and any number of uses of each part", "why_tests_cant": "a use after destruction needs a message to arrive in a window of microseconds and usually has no visible effect", "anchors": ["ecal/core/src/ecal_globals.cpp: CGlobals::Finalize", "ecal/core/src/ecal.cpp: Finalize", "ecal/core/src/readwrite/udp/ecal_reader_udp.cpp: HasSample", "ecal/core/src/readwrite/tcp/ecal_reader_tcp.cpp: OnTcpMessage"]}
{"id": "C85", "title": "Stopping the service threads ends, and no callback runs afterwards", "statement": "Finalize always returns, whatever the running service callbacks do, and after it no service callback runs until the next Initialize.", "quantifier": "every interleaving of any number of application threads and the service threads that create services, connect clients and finalise", "why_tests_cant": "a deadlock needs a callback to be between two adjacent instructions when Finalize is called", "anchors": ["ecal/core/src/service/ecal_service_singleton_manager.cpp: ServiceManager::stop", "ecal/core/src/service/ecal_service_singleton_manager.cpp: ServiceManager::get_server_manager"]}
{"id": "C86", "title": "Service calls made from service callbacks do not deadlock", "statement": "A response callback, an event callback of a client or server, or a method may call the library (make calls, create and destroy clients and servers, change callbacks) without ever blocking for ever.", "quantifier": "any number of user, service and registration threads, clients and servers, every interleaving, callbacks nested in calls to any depth", "why_tests_cant": "a deadlock needs two threads to meet in a short window, or a callback that calls back at all", "anchors": ["ecal/core/src/service/ecal_service_client_impl.cpp: CServiceClientImpl", "ecal/core/src/service/ecal_service_server_impl.cpp: CServiceServerImpl", "ecal/core/src/service/ecal_clientgate.cpp: CClientGate"]}
{"id": "C87", "title": "A publisher may be used while registrations arrive", "statement": "Whatever a program does with a publisher in one thread, the threads of the library (registrations of subscribers, registration cycle) and other calls never access the same data at the same time with one of them writing.", "quantifier": "any number of threads, any sequences of calls and registrations, every interleaving", "why_tests_cant": "a data race is undefined behaviour that most runs survive; tests pass with it", "anchors": ["ecal/core/src/readwrite/ecal_writer.cpp: CDataWriter::Write", "ecal/core/src/readwrite/ecal_writer.cpp: ApplySubscription", "ecal/core/src/readwrite/ecal_writer.cpp: GetRegistrationSample", "ecal/core/src/pubsub/ecal_pubgate.cpp: CPubGate"]}
{"id": "C88", "title": "A subscriber may be used while samples and registrations arrive", "statement": "Whatever a program does with a subscriber in one thread, the threads of the library (deliveries, registrations of publishers, registration cycle) and other calls never access the same data at the same time with one of them writing.", "quantifier": "any number of threads, any sequences of calls, deliveries and registrations, every interleaving", "why_tests_cant": "a data race is undefined behaviour that most runs survive; tests pass with it", "anchors": ["ecal/core/src/readwrite/ecal_reader.cpp: CDataReader::ApplySample", "ecal/core/src/readwrite/ecal_reader.cpp: GetRegistrationSample", "ecal/core/src/readwrite/ecal_reader.cpp: SetID", "ecal/core/src/pubsub/ecal_subgate.cpp: CSubGate"]}
{"id": "C89", "title": "A service client may be used while servers come and go", "statement": "Whatever a program does with a service client in one thread, the threads of the library (responses, registrations of servers, registration cycle), Finalize and other calls never access the same data at the same time with one of them writing.", "quantifier": "any number of threads, any sequences of calls, responses and registrations, every interleaving", "why_tests_cant": "a data race is undefined behaviour that most runs survive; tests pass with it", "anchors": ["ecal/core/src/service/ecal_service_client_impl.cpp: CheckForDisconnectedServices", "ecal/core/src/service/ecal_service_client_impl.cpp: RegisterService", "ecal/core/src/service/ecal_service_client_impl.cpp: SetHostName", "ecal/core/src/service/ecal_clientgate.cpp: CClientGate::Stop"]}
{"id": "C90", "title": "A service server may be created, used and destroyed while clients connect and call", "statement": "Whatever a program does with a service server in one thread, the threads of the library (requests, connections, registration cycle), Finalize and other calls never access the same data at the same time with one of them writing.", "quantifier": "any number of threads, any sequences of calls, requests and connections, every interleaving", "why_tests_cant": "a data race is undefined behaviour that most runs survive; tests pass with it", "anchors": ["ecal/core/src/service/ecal_service_server_impl.cpp: CServiceServerImpl::Start", "ecal/core/src/service/ecal_service_server_impl.cpp: CServiceServerImpl::Stop", "ecal/core/src/service/ecal_service_server_impl.cpp: RequestCallback", "ecal/core/src/service/ecal_servicegate.cpp: CServiceGate::Stop"]}
{"id": "C91", "title": "Client notifications go to the callback the application has chosen", "statement": "Whatever an application added and removed, each connection, disconnection and timeout of a service client is told to the callback added last for it, to nobody if it was removed, and telling never disturbs the call or the library.", "quantifier": "every history of added and removed callbacks, registrations, failing connections, calls and the end of the client", "why_tests_cant": "the event must come after the removal of a callback, in a thread of the library; then the process is gone", "anchors": ["ecal/core/src/service/ecal_service_client_impl.cpp: AddEventCallback", "ecal/core/src/service/ecal_service_client_impl.cpp: RemEventCallback", "ecal/core/src/service/ecal_service_client_impl.cpp: Call", "ecal/core/src/service/ecal_service_client_impl.cpp: RegisterService"]}
{"id": "C92", "title": "Calls to a server of the old service protocol are answered once and in order", "statement": "A client that talks the old service protocol (version 0) to a server answers every accepted call exactly once, each with the response to its own request, writes the requests in the order of the calls and reports at most one connection followed by at most one disconnection.", "quantifier": "every interleaving of calls, completions of network operations, errors, queued tasks and stop, for any number of service threads and host names", "why_tests_cant": "needs an old server, and a connection that breaks while a request is being written and another call arrives in another thread", "anchors": ["ecal/service/ecal_service/src/client_session_impl_v0.cpp: ClientSessionV0::async_call_service", "ecal/service/ecal_service/src/client_session_impl_v0.cpp: ClientSessionV0::send_next_service_request", "ecal/service/ecal_service/src/client_session_impl_v0.cpp: ClientSessionV0::handle_connection_loss_error", "ecal/service/ecal_service/src/client_session_impl_v0.cpp: ClientSessionV0::stop"]}
{"id": "C93", "title": "Stopped client sessions let the library shut down", "statement": "When every service client has been destroyed or stopped by the library's shutdown, the service threads end after finitely many steps without help from any server, so that Finalize returns.", "quantifier": "every number of sessions of both protocol versions, every interleaving of their steps with destruction and shutdown, every behaviour of the servers", "why_tests_cant": "the client must be destroyed while the host name is being looked up or the connection is being made; Finalize then waits for a server that has no reason to close the connection", "anchors": ["ecal/service/ecal_service/src/client_manager.cpp: ClientManager::stop", "ecal/service/ecal_service/src/client_session.cpp: ClientSession::~ClientSession", "ecal/service/ecal_service/src/client_session_impl_v1.cpp: ClientSessionV1::stop", "ecal/core/src/service/ecal_service_singleton_manager.cpp: ServiceManager::stop"]}
{"id": "C94", "title": "A registered publisher on the same host is observed", "statement": "Each successful request to observe a memory file keeps an observer for it running for at least the timeout; requests that repeat within the timeout keep it running for ever; after the observation has been stopped nothing is processed any more and requests are refused; the process is never terminated by it.", "quantifier": "every number of memory files and requesting threads and every interleaving of requests, observer threads, periodic cleanup, stop and the passing of time", "why_tests_cant": "the request must arrive in the second between the timeout of an observer and its cleanup, or between the last check of its loop and its end; nothing reports that the observer is gone", "anchors": ["ecal/core/src/io/shm/ecal_memfile_pool.cpp: CMemFileThreadPool::ObserveFile", "ecal/core/src/io/shm/ecal_memfile_pool.cpp: CMemFileThreadPool::CleanupPool", "ecal/core/src/io/shm/ecal_memfile_pool.cpp: CMemFileThreadPool::Stop", "ecal/core/src/io/shm/ecal_memfile_pool.cpp: CMemFileObserver::Start", "ecal/core/src/io/shm/ecal_memfile_pool.cpp: CMemFileObserver::Observe", "ecal/core/src/readwrite/shm/ecal_reader_shm.cpp: CSHMReaderLayer::SetConnectionParameter"]}
{"id": "C95", "title": "A service call reaches every living server of the service", "statement": "A call goes exactly once to every server of the service that is registered and not timed out (restricted to the chosen host), over a session that was opened for that server with a protocol its port speaks; vanished servers are not called; the client reports for each method how many calls were taken.", "quantifier": "every history of registrations of any services with arbitrary names and times, of calls, host filters and registration cycles; any number of servers", "why_tests_cant": "needs servers with registration intervals above five seconds, servers that vanish while no other service registers, and service names with separators", "anchors": ["ecal/core/src/service/ecal_clientgate.cpp: CClientGate::ApplyServiceRegistration", "ecal/core/src/service/ecal_clientgate.cpp: CClientGate::GetServiceAttr", "ecal/core/src/service/ecal_clientgate.h: CClientGate::m_service_register_map", "ecal/core/src/service/ecal_service_client_impl.cpp: CServiceClientImpl::CheckForNewServices", "ecal/core/src/service/ecal_service_client_impl.cpp: CServiceClientImpl::CallAsync", "ecal/core/src/service/ecal_service_client_impl.cpp: CServiceClientImpl::IncrementMethodCallCount"]}
{"id": "C96", "title": "The documented search order decides which configuration file is used", "statement": "The process is configured by the file of the wanted name that comes first in the documented order (working directory, ECAL_DATA, installation, system, the name itself); a file named by its full path is that file; the library reports the file in use; no environment makes the initialisation undefined.", "quantifier": "every environment, working directory, installation, content of the file system and file name", "why_tests_cant": "depends on the machine: a process in a container without user entry, a removed working directory or a stray file in the working directory", "anchors": ["ecal/core/src/config/ecal_config_initializer.cpp: checkForValidConfigFilePath", "ecal/core/src/config/ecal_config_initializer.cpp: findValidConfigPath", "ecal/core/src/config/ecal_config_initializer.cpp: Configuration::InitFromFile", "ecal/core/src/config/ecal_config_initializer.cpp: GeteCALActiveIniFile", "ecal/core/src/config/ecal_config_initializer.cpp: GeteCALHomePath"]}
{"id": "C97", "title": "A filter for message elements accepts what was inserted", "statement": "A filter accepts an element name exactly if it, or an element inside it, was inserted and not erased since; inserting an element of an array makes the array acceptable; an index star stands for every index; erasing one element leaves all others accepted.", "quantifier": "every sequence of insertions and removals of names of any depth with any indices", "why_tests_cant": "the wrong answers need arrays below the first level, names of which one is the beginning of another, and more than one index in a name; no test of the repository covers the filter", "anchors": ["ecal/msg/protobuf/src/ecal_proto_message_filter.cpp: CreateSet", "ecal/msg/protobuf/src/ecal_proto_message_filter.cpp: BaseIncludeFilter::Insert", "ecal/msg/protobuf/src/ecal_proto_message_filter.cpp: BaseIncludeFilter::Erase", "ecal/msg/protobuf/src/ecal_proto_message_filter.cpp: SimpleIncludeFilter::Filter", "ecal/msg/protobuf/src/ecal_proto_message_filter.cpp: ComplexIncludeFilter::Filter"]}
{"id": "C98", "title": "Walking through a message reports the wanted values, each once and under its own name", "statement": "A visitor gets exactly the values of the message whose containing elements it accepts, in the order of the message, each with its complete name, no two with the same name; starts and ends of messages and arrays match; a set of element names selects exactly the elements named.", "quantifier": "every message of any type, depth and size, every visitor and every set of element names", "why_tests_cant": "the shape of the messages is unbounded and the interplay of nested names, indices and filters depends on it", "anchors": ["ecal/msg/protobuf/src/ecal_proto_decoder.cpp: CProtoDecoder::ProcProtoMsg", "ecal/msg/protobuf/include/ecal/msg/protobuf/ecal_proto_hlp.h: CreateCompleteMessageName", "ecal/msg/protobuf/src/ecal_proto_maximum_array_dimensions.cpp: MaximumArrayDimensionsVisitor::ArrayStart"]}
{"id": "C99", "title": "The description a publisher sends is enough to decode its messages", "statement": "The type description of a protobuf publisher contains every file the message type needs, each once and after its imports; a subscriber without any knowledge of the type creates from it messages of exactly this type; making the description takes time linear in the number of files.", "quantifier": "every import graph, every message type in it (topmost or nested, with or without package), every set of types seen before by the subscriber", "why_tests_cant": "the shape of the import graph is unbounded; files with public imports only, files with services only and equal names in several packages are rare in tests", "anchors": ["ecal/msg/protobuf/include/ecal/msg/protobuf/ecal_proto_hlp.h: GetFileDescriptor", "ecal/msg/protobuf/include/ecal/msg/protobuf/ecal_proto_hlp.h: HasFile", "ecal/msg/protobuf/src/ecal_proto_dyn.cpp: CProtoDynDecoder::GetProtoMessageFromDescriptorSet", "ecal/core/include/ecal/msg/protobuf/dynamic_subscriber.h: ProtobufDynamicDeserializer::CreateMessagePointer"]}
{"id": "C100", "title": "A dynamic subscriber delivers the messages of its publisher or reports an error", "statement": "For every message received while a callback is set, the callback gets the message decoded with the type of its publisher, or the error callback is told once that this was not possible; no message ends the process; moving the subscriber changes nothing of this.", "quantifier": "every sequence of announcements of types, messages, callback changes and moves, every behaviour of the decoder, both deserializers", "why_tests_cant": "needs publishers that restart with another type, malformed data on a running topic, and descriptions that cannot be used", "anchors": ["ecal/core/include/ecal/msg/dynamic.h: CDynamicMessageSubscriber::ReceiveCallback", "ecal/core/include/ecal/msg/dynamic.h: CDynamicMessageSubscriber::PopulateDatatypeInfo", "ecal/core/include/ecal/msg/protobuf/dynamic_subscriber.h: ProtobufDynamicDeserializer::Deserialize", "ecal/core/include/ecal/msg/protobuf/dynamic_json_subscriber.h: ProtobufDynamicJSONDeserializer::Deserialize"]}
{"id": "C101", "title": "A typed subscriber receives the messages a typed publisher sent", "statement": "The messages handed to a subscriber's callback are a subsequence of the messages the application sent - none invented, repeated or reordered; a send while subscribers are connected reaches each of them exactly once; the returned number is the number of bytes sent; a message that cannot be serialised is not sent.", "quantifier": "every message type, every sequence of sends, every moment at which subscribers connect and disconnect, both families of typed publishers", "why_tests_cant": "the subscriber must connect between two checks of the same call, or the payload writer must fail; the result is a well-formed message", "anchors": ["ecal/core/include/ecal/msg/publisher.h: CMsgPublisher::Send", "ecal/core/include/ecal/msg/protobuf/publisher.h: CPublisher::CPayload", "ecal/core/src/pubsub/ecal_publisher.cpp: CPublisher::Send", "ecal/core/src/readwrite/ecal_writer.cpp: CDataWriter::Write", "ecal/core/include/ecal/msg/subscriber.h: CMessageSubscriber::ReceiveCallback"]}
{"id": "C102", "title": "A sample written directly into shared memory has the content that was meant", "statement": "Every sample readers are told of has, byte for byte, the content the payload object stands for, whether it was written completely or in part, and with any number of memory files.", "quantifier": "every sequence of payload objects of any size, every reserve, every failure of locks and file creations", "why_tests_cant": "needs partial writes, payloads that grow within the reserve of the file, and failing writers; readers cannot tell", "anchors": ["ecal/core/include/ecal/ecal_payload_writer.h: CPayloadWriter::WriteModified", "ecal/core/src/io/shm/ecal_memfile.cpp: CMemoryFile::WritePayload", "ecal/core/src/io/shm/ecal_memfile_sync.cpp: CSyncMemoryFile::Write", "ecal/core/src/readwrite/shm/ecal_writer_shm.cpp: CDataWriterSHM::Write"]}
{"id": "C103", "title": "Typed subscribers can be moved and destroyed while samples arrive", "statement": "A receiving thread never touches a destroyed subscriber object and never accesses its callback at the same time as the application; a moved subscriber keeps its callback and no sample is lost by the move; after the callback was removed or the subscriber destroyed it is not called any more.", "quantifier": "every number of subscriber objects and readers, every sequence of operations on them, every interleaving with the receiving threads", "why_tests_cant": "a sample must arrive within the few instructions of a move or destructor", "anchors": ["ecal/core/include/ecal/msg/subscriber.h: CMessageSubscriber::CMessageSubscriber", "ecal/core/include/ecal/msg/subscriber.h: CMessageSubscriber::operator=", "ecal/core/include/ecal/msg/subscriber.h: CMessageSubscriber::ReceiveCallback", "ecal/core/include/ecal/msg/subscriber.h: CMsgSubscriber::~CMsgSubscriber", "ecal/core/src/pubsub/ecal_subscriber.cpp: CSubscriber::operator=", "ecal/core/src/readwrite/ecal_reader.cpp: CDataReader::ApplySample"]}
{"id": "C104", "title": "Over the network a subscriber gets the messages of a publisher unchanged, in order and at most once", "statement": "The messages an application receives from a publisher over UDP and TCP are a subsequence of the messages sent, with payload, time and id as sent, whatever is lost, duplicated, reordered or sent by others; if everything arrives in order, every message sent over a started layer is received exactly once.", "quantifier": "every sequence of sends and connections, every payload, name, id and time, every sequence of bytes arriving at the receiving process that does not claim the publisher's id, every use of the subscriber", "why_tests_cant": "the composition of counter, hash, serialisation, framing, parsing, routing and filtering has to be right for all byte sequences of the network at once", "anchors": ["ecal/core/src/readwrite/udp/ecal_writer_udp.cpp: CDataWriterUdpMC::Write", "ecal/core/src/readwrite/tcp/ecal_writer_tcp.cpp: CDataWriterTCP::Write", "ecal/core/src/readwrite/tcp/ecal_reader_tcp.cpp: CDataReaderTCP::OnTcpMessage", "ecal/core/src/pubsub/ecal_subgate.cpp: CSubGate::ApplySample", "ecal/core/src/io/udp/ecal_udp_sample_receiver_asio.cpp: CSampleReceiverAsio::Receive", "ecal/core/src/readwrite/ecal_reader.cpp: CDataReader::ApplySample"]}
{"id": "C105", "title": "Over shared memory a subscriber gets the messages of a publisher unchanged, in order and at most once", "statement": "The messages an application receives from a publisher over shared memory are a subsequence of the messages sent, with payload, time and id as sent; a message in a file whose observer is signalled and gets the lock before the next write is received.", "quantifier": "every sequence of sends of any size, every number of buffers and change of it, every schedule of observers with missed signals and locks and restarts, every growth and re-creation of files", "why_tests_cant": "the header and payload bytes of several files are read by several threads at any moment between writes of different sizes", "anchors": ["ecal/core/src/readwrite/shm/ecal_writer_shm.cpp: CDataWriterSHM::Write", "ecal/core/src/io/shm/ecal_memfile_sync.cpp: CSyncMemoryFile::Write", "ecal/core/src/io/shm/ecal_memfile_header.h: SMemFileHeader", "ecal/core/src/io/shm/ecal_memfile_pool.cpp: CMemFileObserver::Observe", "ecal/core/src/io/shm/ecal_memfile_pool.cpp: CMemFileObserver::ReadFileHeader", "ecal/core/src/readwrite/shm/ecal_reader_shm.cpp: CSHMReaderLayer::OnNewShmFileContent"]}
{"id": "C106", "title": "Publishers and subscribers of different processes find each other and forget each other", "statement": "A publisher and a subscriber of the same topic in processes that listen to each other get connected: once a registration datagram of the subscriber reached the publisher's process and a datagram of the following cycle reached the subscriber's process, both know each other and were notified, whatever else happens. Nobody knows a peer that never existed, had another topic or lives in a process it does not listen to. A peer that is silent for the timeout or unregistered is forgotten.", "quantifier": "every number of processes, hosts, publishers and subscribers, every interleaving of their registration threads, every order, loss and duplication of datagrams", "why_tests_cant": "the handshake runs over several cycles of two processes, with arbitrary delays and any other traffic in between", "anchors": ["ecal/core/src/registration/ecal_registration_provider.cpp: CRegistrationProvider::RegisterSendThread", "ecal/core/src/registration/udp/ecal_registration_sender_udp.cpp: CRegistrationSenderUDP::SendSample", "ecal/core/src/registration/udp/ecal_registration_receiver_udp.cpp: CRegistrationReceiverUDP", "ecal/core/src/pubsub/ecal_pubgate.cpp: CPubGate::ApplySubRegistration", "ecal/core/src/pubsub/ecal_subgate.cpp: CSubGate::ApplyPubRegistration", "ecal/core/src/readwrite/ecal_writer.cpp: CDataWriter::GetRegistrationSample"]}
{"id": "C107", "title": "A service call executes its own request at most once and returns that execution's result", "statement": "What a caller gets back from a server is the outcome of its own call: reported as executed, the named method ran with exactly the given request and the returned value and response are those of that run; reported by the server as failed, the method was not run. No request is executed twice, executions happen in the order of the calls, nothing is executed that was not called. As long as the connection stands every call is answered by the server.", "quantifier": "every number of calls at any time, every request and response, every segmentation of both byte streams, every interleaving of the sessions, the network and the strands, every failure and stop, every change of the methods, every behaviour of the methods", "why_tests_cant": "request and response are matched only by their position in two byte streams cut at arbitrary places; a shift by one would hand every caller the result of another call", "anchors": ["ecal/service/ecal_service/src/client_session_impl_v1.cpp: ClientSessionV1::send_next_service_request", "ecal/service/ecal_service/src/client_session_impl_v1.cpp: ClientSessionV1::receive_service_response", "ecal/service/ecal_service/src/server_session_impl_v1.cpp: ServerSessionV1::receive_service_request", "ecal/service/ecal_service/src/protocol_v1.cpp: async_receive_payload", "ecal/core/src/service/ecal_service_server_impl.cpp: CServiceServerImpl::RequestCallback", "ecal/core/src/service/ecal_service_client_impl.cpp: CServiceClientImpl::CallBlocking", "ecal/core/src/service/ecal_service_client_impl.cpp: CServiceClientImpl::fromStruct"]}
{"id": "C108", "title": "Over shared memory the processes of a host learn of each other's publishers and subscribers", "statement": "What a process learns over shared memory registration is what some process wrote: the publishers and subscribers of all processes are in a state that registration over a network could have brought about. Every registration and unregistration that a process writes and announces without failing is received by every other process that polls, so that a publisher gets to know the subscribers of its topic and forgets those that are destroyed.", "quantifier": "every number of processes, every interleaving of the single accesses to the broadcast file and the payload files, every growth and re-creation of payload files, every failing access, processes that leave or die at any access", "why_tests_cant": "losses need a poll at a certain moment between two accesses of another process; every single component works as designed", "anchors": ["ecal/core/src/registration/shm/ecal_registration_sender_shm.cpp: CRegistrationSenderSHM::SendSampleList", "ecal/core/src/registration/shm/ecal_registration_receiver_shm.cpp: CRegistrationReceiverSHM::Receive", "ecal/core/src/registration/shm/ecal_memfile_broadcast_writer.cpp: CMemoryFileBroadcastWriter::Write", "ecal/core/src/registration/shm/ecal_memfile_broadcast_reader.cpp: CMemoryFileBroadcastReader::Read", "ecal/core/src/registration/shm/ecal_memfile_broadcast.cpp: CMemoryFileBroadcast::SendEvent", "ecal/core/src/registration/ecal_registration_provider.cpp: CRegistrationProvider::RegisterSendThread"]}
{"id": "C109", "title": "A client finds the servers of its service on the network", "statement": "A call of a client goes, once each, only to servers of its service that exist or existed, on the host and port they opened, with the protocol spoken there, in processes the client's process listens to and on hosts the client accepts. A server that was created and whose process completed a registration cycle is called as soon as that registration has arrived, and as long as it is announced. Servers that are gone are not called.", "quantifier": "every number of processes, hosts, servers and services, every interleaving of their registration threads, every order, loss and duplication of datagrams, every setting of host groups and network mode, enabled protocols and ports, every sequence of calls and host filters", "why_tests_cant": "the way from a server's port to a client's session leads through two processes, a serialisation, a filter and a table with its own clock; what is missing shows only with settings and delays a test does not combine", "anchors": ["ecal/core/src/service/ecal_service_server_impl.cpp: CServiceServerImpl::GetRegistrationSample", "ecal/core/src/service/ecal_servicegate.cpp: CServiceGate::GetRegistrations", "ecal/core/src/service/ecal_clientgate.cpp: CClientGate::ApplyServiceRegistration", "ecal/core/src/service/ecal_service_client_impl.cpp: CServiceClientImpl::CheckForNewServices", "ecal/core/src/registration/ecal_registration_sample_applier.cpp: CSampleApplier::AcceptRegistrationSample", "ecal/core/src/registration/ecal_registration_sample_applier_gates.cpp: CSampleApplierGates::ApplySample"]}
{"id": "C110", "title": "Publishers, subscribers, servers and clients can be kept over any number of initialisations and finalisations", "statement": "However the application creates, destroys, moves and uses its objects, before, between and after any initialisations and finalisations of the library, the library never uses an object that was freed. An object whose creation was reported as successful is announced to other processes, exactly once, as long as the component is initialised and the object is not destroyed; after that it is not. What its functions report agrees with what they do.", "quantifier": "every sequence of calls on any number of objects, of initialisations of any components, of finalisations and of registrations of other processes that arrive in between", "why_tests_cant": "the library and the objects have separate life cycles; pointers to the objects are kept in tables that come and go with the library, and the sequences that tell correct and stale entries apart are long", "anchors": ["ecal/core/src/pubsub/ecal_publisher.cpp: CPublisher::Create", "ecal/core/src/pubsub/ecal_publisher.cpp: CPublisher::Send", "ecal/core/src/pubsub/ecal_subscriber.cpp: CSubscriber::Destroy", "ecal/core/src/service/ecal_service_server.cpp: CServiceServer::Create", "ecal/core/src/service/ecal_service_client.cpp: CServiceClient::Destroy", "ecal/core/src/pubsub/ecal_pubgate.cpp: CPubGate::Stop", "ecal/core/src/service/ecal_servicegate.cpp: CServiceGate::Stop", "ecal/core/src/ecal_globals.cpp: CGlobals::Finalize"]}
{"id": "C111", "title": "From discovery to delivery: who finds a subscriber serves it", "statement": "What an application receives was sent by a publisher of the same topic, unchanged, and the messages it gets from one publisher are a subsequence of those sent. Once a registration of a subscriber has reached the process of a publisher of its topic, and as long as registrations are not older than the timeout, every message sent goes over the layer that comes first in the publisher's order of preference among those both sides are configured for; the message is delivered exactly once if that copy reaches the subscriber before anything sent later. Publisher and subscriber that report to be connected can exchange messages.", "quantifier": "every number of processes, publishers and subscribers, every configuration of layers and preferences, every interleaving of registration, creation, destruction and sending, every loss, duplication and reordering of copies and datagrams on all layers, any other traffic", "why_tests_cant": "discovery and data transport are separate mechanisms of both processes; that a connection in the one means delivery in the other needs both together, with every configuration and every schedule", "anchors": ["ecal/core/src/readwrite/ecal_writer.cpp: CDataWriter::ApplySubscription", "ecal/core/src/readwrite/ecal_writer.cpp: CDataWriter::Write", "ecal/core/src/readwrite/ecal_writer.cpp: CDataWriter::CheckConnections", "ecal/core/src/readwrite/ecal_reader.cpp: CDataReader::GetRegistrationSample", "ecal/core/src/readwrite/ecal_reader.cpp: CDataReader::ApplySample", "ecal/core/src/pubsub/ecal_pubgate.cpp: CPubGate::ApplySubRegistration", "ecal/core/src/pubsub/ecal_subgate.cpp: CSubGate::ApplySample"]}
{"id": "C112", "title": "A client tries all hosts it knows for a server, in order, and errors have a cause", "statement": "A client that has several host names for a server tries them in the order of its list; the first one that can be reached is taken, and the client gives up only after all of them failed. If a later host would accept, the client gets connected. A client that got connected reports no disconnection and no failed call unless an operation on the connection failed or the client was stopped. Exactly the calls made before the client was stopped are accepted.", "quantifier": "every length of the list, every combination of outcomes for its hosts, every interleaving of the set-up with calls, responses and completions", "why_tests_cant": "tests have one host that answers; which host is next after which failure, and whether calls made meanwhile matter, are combinations of network failures and timing", "anchors": ["ecal/service/ecal_service/src/client_session_impl_v1.cpp: ClientSessionV1::resolve_endpoint", "ecal/service/ecal_service/src/client_session_impl_v1.cpp: ClientSessionV1::connect_to_endpoint", "ecal/service/ecal_service/src/client_session_impl_v1.cpp: ClientSessionV1::receive_protocol_handshake_response", "ecal/service/ecal_service/src/client_session_impl_v0.cpp: ClientSessionV0::resolve_endpoint", "ecal/service/ecal_service/src/client_session_impl_v0.cpp: ClientSessionV0::connect_to_endpoint"]}
{"id": "C113", "title": "A monitoring application sees the publishers and subscribers of the network", "statement": "The monitoring of a process lists only publishers and subscribers that exist or existed, of processes it listens to and of topics its filters let pass, with the content of one of their announcements that arrived not longer ago than the timeout. Each is listed once. A publisher or subscriber whose announcement arrived not longer ago than the timeout and which was not destroyed is listed; one whose announcements are all too old, or were followed by its withdrawal, is not.", "quantifier": "every number of processes, publishers and subscribers, every interleaving of creation, destruction, registration threads, looks at the monitoring and filters, every order, loss and duplication of datagrams, every timeout", "why_tests_cant": "the way from a publisher to a monitoring list leads through two processes, a serialisation, two filters and a table with its own clock and its own keys", "anchors": ["ecal/core/src/monitoring/ecal_monitoring_impl.cpp: CMonitoringImpl::ApplySample", "ecal/core/src/monitoring/ecal_monitoring_impl.cpp: CMonitoringImpl::RegisterTopic", "ecal/core/src/monitoring/ecal_monitoring_impl.cpp: CMonitoringImpl::GetMonitoring", "ecal/core/src/registration/ecal_registration_sample_applier.cpp: CSampleApplier::ApplySample", "ecal/core/src/registration/ecal_registration_provider.cpp: CRegistrationProvider::RegisterSendThread"]}
{"id": "C114", "title": "Registration callbacks hear of every registration once, and of none after they were removed", "statement": "A callback the application sets for registrations of a kind is called for every registration and unregistration of this kind that the process listens to and that arrives while it is set, once each and in the order of arrival, with bytes that decode to what arrived. Setting it replaces the one before, and callbacks of different kinds do not affect each other. When the removal of a callback has returned, the callback is not called any more. Callbacks may be set and removed at any time, from any thread, and may call the library.", "quantifier": "every sequence of registrations, settings and removals, every interleaving of the threads of the application with the thread that receives, every set of calls made by callbacks, any number of publishers, subscribers and threads", "why_tests_cant": "a call after the removal and a data race need a registration to arrive between two instructions of another thread; the result of a data race is not reproducible", "anchors": ["ecal/core/src/ecal_process.cpp: Process::AddRegistrationCallback", "ecal/core/src/ecal_process.cpp: Process::RemRegistrationCallback", "ecal/core/src/registration/ecal_registration_sample_applier_user.cpp: CSampleApplierUser::ApplySample", "ecal/core/src/registration/ecal_registration_sample_applier.cpp: CSampleApplier::ApplySample", "ecal/core/src/registration/ecal_registration_receiver.cpp: CRegistrationReceiver::CRegistrationReceiver"]}
{"id": "C115", "title": "Processes that share a memory segment neither crash each other nor keep what they have left", "statement": "However many processes create, open, read, write, remove and leave shared segments, at whatever moment and whichever system call fails, no process is killed by a signal because of it; what a creator has written another user of the segment can read in full; and a process that has left a segment holds no descriptor and no mapping of it.", "quantifier": "every number of processes and segments, every interleaving of their system calls, every length, every descriptor number, every failure of shm_open, ftruncate, mmap and of the mutex", "why_tests_cant": "the window between two system calls of another process is microseconds wide, failing system calls and processes configured differently do not occur in tests, and a killed test process proves nothing about the others", "anchors": ["ecal/core/src/io/shm/linux/ecal_memfile_os.cpp: AllocFile, DeAllocFile, RemoveFile, MapFile, UnMapFile, CheckFileSize", "ecal/core/src/io/shm/ecal_memfile.cpp: CMemoryFile::Create", "ecal/core/src/io/shm/ecal_memfile.cpp: CMemoryFile::Destroy", "ecal/core/src/io/shm/ecal_memfile.cpp: CMemoryFile::GetAccess", "ecal/core/src/io/shm/ecal_memfile_db.cpp: CMemFileMap::AddFile", "ecal/core/src/registration/shm/ecal_memfile_broadcast.cpp: CMemoryFileBroadcast::Create"]}
{"id": "C116", "title": "A typed call returns the message the typed method made from the request message", "statement": "A call of a typed client that is answered by a typed server either reports failure, and then no method was called, or the method it named was called exactly once with exactly the message the caller passed, and the caller gets exactly the message the method made. A typed server may be created, destroyed and deleted at any time, also while requests arrive, without any effect but that requests are answered or refused; a call on it returns true only if it had the effect.", "quantifier": "every message format, every service type, every behaviour of its methods, every number of calls and connections, every segmentation and failure of the connection, every interleaving of requests with creation, destruction and deletion of the server", "why_tests_cant": "what a destroyed object answers is not reproducible, a request between two statements of Create or of two destructors needs luck, and messages that cannot be serialised are not written into tests", "anchors": ["ecal/core/include/ecal/msg/protobuf/server.h: CServiceServer::Create", "ecal/core/include/ecal/msg/protobuf/server.h: CServiceServer::Destroy", "ecal/core/include/ecal/msg/protobuf/server.h: CServiceServer::RequestCallback", "ecal/core/include/ecal/msg/protobuf/client.h: CServiceClient::Call", "ecal/core/src/service/ecal_service_server.cpp: CServiceServer::Create", "ecal/core/src/service/ecal_service_server_impl.cpp: CServiceServerImpl::RequestCallback", "ecal/core/src/service/ecal_service_client_impl.cpp: CServiceClientImpl::Call"]}
{"id": "C117", "title": "Processes that open an event of the same name share one event", "statement": "Whenever two processes have successfully opened an event of the same name, a signal of one is reported by the next wait of the other, exactly once, and by nobody who has opened another name; opening, signalling, waiting and closing never kill a process; when the last user has closed the event nothing of it is left.", "quantifier": "every number of processes and names, every interleaving of their system calls, every failure of shm_open, ftruncate and mmap, every death of a process", "why_tests_cant": "the race of two openers is a few microseconds wide and leaves no trace but a connection that never works, and events left behind by earlier runs are not part of a test", "anchors": ["ecal/core/src/ecal_event.cpp: gOpenNamedEvent", "ecal/core/src/ecal_event.cpp: CNamedEvent", "ecal/core/src/ecal_event.cpp: named_event_create", "ecal/core/src/ecal_event.cpp: named_event_open", "ecal/core/src/ecal_event.cpp: named_event_set", "ecal/core/src/ecal_event.cpp: named_event_trywait", "ecal/core/src/ecal_event.cpp: gCloseEvent", "ecal/core/src/io/shm/ecal_memfile_sync.cpp: CSyncMemoryFile::Connect", "ecal/core/src/io/shm/ecal_memfile_pool.cpp: CMemFileObserver::Create"]}
{"id": "C118", "title": "A request to shut down reaches exactly the processes it is meant for", "statement": "ShutdownProcess by name, ShutdownProcesses and ShutdownCore make eCAL::Ok() return false in every living process of the own host with that process name, that is no eCAL tool, or that is an eCAL tool, and in no other process.", "quantifier": "every set of processes and hosts, every number of callers and calls, every interleaving of the calls with calls of Ok() in all processes, every state of the caller's monitoring", "why_tests_cant": "tests shut down one process and do not look at those that must survive; process ids are reused rarely and never in a test", "anchors": ["ecal/core/src/ecal_util.cpp: ShutdownProcess", "ecal/core/src/ecal_util.cpp: ShutdownProcesses", "ecal/core/src/ecal_util.cpp: ShutdownCore", "ecal/core/src/ecal.cpp: Ok"]}
{"id": "C119", "title": "No received bytes make the decoder read outside of the message", "statement": "Whatever bytes arrive as a payload sample, registration sample, list of registration samples, service request, service response, log message, list of log messages or monitoring snapshot: decoding them ends, reads only these bytes, and its result is what the message format says about them - success with the message or failure.", "quantifier": "every content of the memory, every position and length of the message inside of it, every content of the target object, all eight message types", "why_tests_cant": "reading beyond a buffer usually has no visible effect, and the inputs that reach the rare paths (over-long varints, lengths near 2^32, sub-messages that exceed their parent, unknown wire types) are not produced by the library's own encoder", "anchors": ["ecal/core/src/serialization/nanopb/nanopb/pb_decode.c: pb_decode, pb_decode_inner, pb_decode_varint, pb_decode_varint32_eof, pb_skip_field, pb_make_string_substream, pb_close_string_substream, decode_callback_field, read_raw_value", "ecal/core/src/serialization/nanopb/nanopb/pb_common.c: pb_field_iter_find", "ecal/core/src/serialization/ecal_serialize_common.cpp: decode_string_field, decode_map_field, decode_registration_layer_field, decode_service_methods_field", "ecal/core/src/serialization/ecal_serialize_sample_registration.cpp: Buffer2RegistrationStruct", "ecal/core/src/serialization/ecal_serialize_sample_payload.cpp: Buffer2PayloadStruct"]}
{"id": "C120", "title": "The encoder writes exactly the message, inside of the buffer it was given", "statement": "Serialising a payload sample, registration sample, list of registration samples, service request, service response, log message, list of log messages or monitoring snapshot succeeds; the target then has exactly the size of the message and contains exactly its serialisation, whatever it contained before. Writing a message into a window of any size in a larger memory either puts the message at the start of the window and leaves the rest of the memory as it was, or - if it does not fit - is refused; no byte outside of the window is written.", "quantifier": "every message of the eight types whose serialisation is shorter than 2^64 bytes (2^32 for the way back through the decoder), every former content of the target, every window in every memory", "why_tests_cant": "the encoder runs every table twice, once counting and once writing, with nested counting passes for sub-messages; that the passes agree for all combinations of empty, zero, absent and repeated parts, and that the size checks hold at the boundary, needs an argument over all messages", "anchors": ["ecal/core/src/serialization/nanopb/nanopb/pb_encode.c: pb_encode, pb_write, buf_write, pb_encode_varint, pb_encode_tag_for_field, pb_encode_string, pb_encode_submessage, encode_field, pb_check_proto3_default_value", "ecal/core/src/serialization/ecal_serialize_common.cpp: encode_string_field, encode_bytes_field_vec, encode_map_field, encode_string_list_field, encode_registration_layer_field, encode_service_methods_field", "ecal/core/src/serialization/ecal_serialize_sample_registration.cpp: RegistrationStruct2Buffer, RegistrationListStruct2Buffer", "ecal/core/src/serialization/ecal_serialize_monitoring.cpp: MonitoringStruct2Buffer", "ecal/core/src/serialization/ecal_serialize_logging.cpp: LogMessageListStruct2Buffer"]}
{"id": "C121", "title": "Process-wide functions may be used from several threads", "statement": "The functions about the process (state, unit name, host name, process name, parameters), the monitoring (filters, snapshots), the logging and Initialize may be called from any threads at the same time, while registrations are sent and received and log messages arrive, without a data race.", "quantifier": "any number of threads, each with any sequence of these operations; every interleaving of their steps", "why_tests_cant": "Data races show only with unlucky timing and have no defined behaviour; tests call these functions from one thread.", "anchors": ["ecal/core/src/ecal_process.cpp: SetState, GetHostName, GetProcessParameter", "ecal/core/src/ecal.cpp: Initialize, SetUnitName", "ecal/core/src/registration/ecal_process_registration.cpp: GetProcessRegisterSample", "ecal/core/src/monitoring/ecal_monitoring_impl.cpp: SetExclFilter, SetFilterState, GetMonitoring", "ecal/core/src/logging/ecal_log_impl.cpp: Log, SetLogLevel, Start"]}
{"id": "C122", "title": "A call is executed by a server of the service it was made for, from discovery to the result", "statement": "A client that learned of a server from its registration gets, for every call that is handed to it, the result of executing exactly this request at that server, or a failure; the result names the server. Each call is executed at most once by each server, only by servers of the client's service, and every execution belongs to a call.", "quantifier": "any number of processes with servers and clients that come and go, every loss, repetition and order of registrations, every interleaving of the steps of all connections, all calls", "why_tests_cant": "Needs the discovery, the sessions, the transport and the serialisation together, over all orders of announcing, destroying and creating servers; a port that is used again by another server occurs rarely and by chance.", "anchors": ["ecal/core/src/service/ecal_service_client_impl.cpp: CallBlocking, CheckForNewServices", "ecal/core/src/service/ecal_clientgate.cpp: ApplyServiceRegistration, GetServiceAttr", "ecal/core/src/service/ecal_service_server_impl.cpp: GetRegistrationSample, RequestCallback", "ecal/service/ecal_service/src/client_session_impl_v1.cpp: connect_to_endpoint, send_protocol_handshake_request, receive_protocol_handshake_response"]}
{"id": "C123", "title": "Starting a program in a terminal window reports what happened", "statement": "With a configured terminal emulator, StartProcess returns the process id of the program if it was started in the window and 0 if it is not started; it always returns; it leaves no files; with block it returns when the program has ended; the program gets the same arguments as without a terminal.", "quantifier": "every interleaving of the caller, its child, the terminal, the helper program in the window and the started program, with failures, signals, delays and a window that is closed at any time", "why_tests_cant": "Needs a display, a terminal emulator and exact timing between four processes; tests run without display and take the other path.", "anchors": ["ecal/core/src/ecal_process.cpp: StartProcess, getTerminalEmulatorCommand", "ecal/core/src/ecal_process_stub.cpp: main"]}
{"id": "C124", "title": "The C interface passes on exactly what a C program gives it", "statement": "A function of the C interface that is given an object calls the corresponding method of that object once, with exactly the texts and bytes the program has put into memory, and returns what the method answered; a function that is given no object does nothing and returns 0. A program that uses only handles it got and has not destroyed, and arguments that mean something, never makes the interface touch memory that is not there. Objects exist exactly from the call that returned their handle to the call that destroys it. Callbacks are called with the pointer they were registered with and are told what a C++ callback is told.", "quantifier": "All sequences of calls of the functions with handles (publishers, subscribers, clients, servers, timers), all arguments in memory, all answers of the C++ objects, all reuses of addresses by the allocator.", "why_tests_cant": "Tests use one or two well formed calls per function; which arguments are read outside of their memory, what happens to binary descriptions and null callbacks and reused handles needs all arguments and all orders of calls.", "anchors": ["ecal/core/src/cimpl/ecal_publisher_cimpl.cpp: eCAL_Pub_New, eCAL_Pub_Create, eCAL_Pub_Destroy, eCAL_Pub_SetAttribute, eCAL_Pub_SetID, eCAL_Pub_Send, eCAL_Pub_AddEventCallback, g_pub_event_callback", "ecal/core/src/cimpl/ecal_subscriber_cimpl.cpp: eCAL_Sub_New, eCAL_Sub_Create, eCAL_Sub_SetID, eCAL_Sub_GetTypeName, eCAL_Sub_AddReceiveCallback", "ecal/core/src/cimpl/ecal_client_cimpl.cpp: eCAL_Client_Create, eCAL_Client_Call, eCAL_Client_Call_Async, g_response_callback", "ecal/core/src/cimpl/ecal_server_cimpl.cpp: eCAL_Server_Create, eCAL_Server_AddMethodCallback, g_method_callback", "ecal/core/src/cimpl/ecal_timer_cimpl.cpp: eCAL_Timer_Start", "ecal/core/src/cimpl/ecal_time_cimpl.cpp: eCAL_Time_GetStatus"]}
{"id": "C125", "title": "Publishers are told apart", "statement": "Any two publishers of a topic have different identities, on one host and on different hosts, at the same time and one after the other. Hence all messages of all publishers are delivered to a subscriber that gets them in the order of sending, each publisher counts as one connection until it is destroyed, and each is listed by the monitoring.", "quantifier": "any number of publishers on any hosts, created at any clock readings, every interleaving of creating and sending, every hash function of the standard library", "why_tests_cant": "The identity is a clock reading; equal readings of two hosts or of two threads and colliding sample hashes happen by chance and cannot be arranged in a test.", "anchors": ["ecal/core/src/readwrite/ecal_writer.cpp: CDataWriter, PrepareWrite, SSndHash", "ecal/core/src/readwrite/ecal_reader.cpp: ApplySample, CheckMessageClock", "ecal/core/src/readwrite/ecal_reader.h: SPublicationInfo", "ecal/core/src/monitoring/ecal_monitoring_impl.cpp: RegisterTopic", "ecal/core/src/service/ecal_service_client_impl.cpp: Create", "ecal/core/src/service/ecal_service_server_impl.cpp: Create"]}
{"id": "C126", "title": "Log messages arrive as they were logged", "statement": "Every message that passes the filter for the network is collected by every other process that receives the datagrams (in local mode: of the same host), once and in the order of logging, with time, host, process, unit, level and text unchanged, and is handed out by exactly one fetch, as structure, as serialised text or through the C interface. Nothing is handed out that was not logged. The log file tells which messages were logged, at which time and level.", "quantifier": "all messages of any number of processes, all texts, levels and filters, every loss, repetition and order of the datagrams, every interleaving of arrivals and fetches, all buffers of the C interface", "why_tests_cant": "Needs logging, serialisation, transport and fetching together over all interleavings; texts with line feeds or zero bytes, buffers that are a little too small and fetching after finalising are not in the tests.", "anchors": ["ecal/core/src/logging/ecal_log_impl.cpp: Log, GetLogging, HasSample, ApplySample", "ecal/core/src/logging/ecal_log.cpp: GetLogging", "ecal/core/src/cimpl/ecal_log_cimpl.cpp: eCAL_Logging_GetLogging", "ecal/core/src/io/udp/ecal_udp_sample_sender.cpp: Send"]}
{"id": "C127", "title": "C programs get the type descriptions that were announced", "statement": "The eleven C functions that tell type name, encoding and description of a topic, or of request and response of a method, put exactly the text into the buffer that a living entity has announced, the best one known, and return its length; for topics and methods nobody has announced they return 0 and touch nothing. The texts got for one topic belong together.", "quantifier": "all histories of registrations, unregistrations, time-outs and queries, all names and texts, all buffers, initialised or not", "why_tests_cant": "Needs the store of descriptions over time together with the copying; the mixture needs a registration between two calls; small buffers and missing types are not in the tests.", "anchors": ["ecal/core/src/cimpl/ecal_util_cimpl.cpp: eCAL_Util_GetTopicTypeName, eCAL_Util_GetTopicEncoding, eCAL_Util_GetTopicDescription, eCAL_Util_GetServiceRequestTypeName, eCAL_Util_GetClientResponseDescription", "ecal/core/src/ecal_util.cpp: GetTopicDataTypeInformation, GetServiceTypeNames, GetServiceDescription, GetClientTypeNames, GetClientDescription", "ecal/core/src/ecal_descgate.cpp: ApplySample"]}
{"id": "C128", "title": "Objects in shared memory have names of their own", "statement": "Everything the library opens by name in shared memory – memory files of publishers, queue and payloads of the registration, the mutexes of these, the events between publishers and subscribing processes, the shutdown events – has a name of its own, so that a subscriber that opens the file of a publisher always reads what that publisher has sent, as long as it lives and whatever publishers come, go and crash; and both sides compute the same name for the same object.", "quantifier": "all numbers drawn, all process ids, all names of registration domains, all histories of creating, sending, destroying, crashing, opening and reading", "why_tests_cant": "The names contain random numbers and process ids; a clash needs a coincidence or an unlucky configuration, which a test cannot arrange or exclude.", "anchors": ["ecal/core/src/io/shm/ecal_memfile_naming.cpp: BuildRandomMemFileName", "ecal/core/src/io/shm/ecal_memfile_sync.cpp: Create, Connect, Destroy", "ecal/core/src/io/shm/linux/ecal_memfile_os.cpp: AllocFile, RemoveFile", "ecal/core/src/io/mtx/linux/ecal_named_mutex_impl.cpp: named_mutex_buildname", "ecal/core/src/ecal_event.cpp: CNamedEvent", "ecal/core/src/registration/shm/ecal_memfile_broadcast.h: BuildPayloadMemfileName", "ecal/core/src/readwrite/shm/ecal_reader_shm.cpp: SetConnectionParameter"]}
{"id": "C129", "title": "A process has an identity of its own, whatever started it", "statement": "Every living process reports its own process id and the name of its host, so that no two living processes of a host are taken for one: the registrations of one are accepted by every other of its host group, a request to stop a process is seen by this process when it asks next, and by no other.", "quantifier": "all histories of starting, forking, exec, ending with reuse of process numbers, renaming the host, requests to stop and calls of the library in any process", "why_tests_cant": "The outcome depends on whether the id was read before a fork and on reuse of process numbers by the operating system; tests run in one process.", "anchors": ["ecal/core/src/ecal_process.cpp: create_proc_id, GetProcessID, GetHostName", "ecal/core/src/ecal_global_accessors.cpp: g_process_id, g_host_name", "ecal/core/src/ecal.cpp: ShutdownProcEvent, Ok", "ecal/core/src/ecal_util.cpp: ShutdownProcess", "ecal/core/src/registration/ecal_registration_sample_applier.cpp: IsSameProcess, AcceptRegistrationSample"]}
{"id": "C130", "title": "A process is shown as it is", "statement": "What other processes show about a process that registers is what is true of it: the name its unit was given last, or the name of its program if none was given; the path of its program; a command line from which exactly its arguments can be read; the severity, level and text it has set last; the components that are initialised; and these answers do not change unless the program changes them.", "quantifier": "all histories of initialising, naming, setting states, finalising, asking and registering; all answers of the operating system at every call; all argument lists and names", "why_tests_cant": "Depends on the order of calls, on what the operating system answers at which time and on all characters that can occur in arguments; tests look at one process that was started in the usual way.", "anchors": ["ecal/core/src/ecal_global_accessors.cpp: SetGlobalUnitName", "ecal/core/src/ecal.cpp: Initialize, SetUnitName, Finalize", "ecal/core/src/ecal_process.cpp: GetProcessName, GetProcessParameter, GetUnitName, GetTaskParameter, SetState", "ecal/core/src/registration/ecal_process_registration.cpp: GetProcessRegisterSample", "ecal/core/src/monitoring/ecal_monitoring_impl.cpp: RegisterProcess"]}
{"id": "C131", "title": "A publisher or subscriber is shown as it is", "statement": "For every history of calls on a publisher (type information, attributes, ids, samples sent, subscribers that come and go) the entry that the monitoring of another process makes of its next registration says what is true: the host, process, topic and unit it belongs to, exactly the attributes set and not cleared since, the type information given last as far as it is shared, the number of samples sent, id and size of the last sample, the numbers of subscribers on the same host and elsewhere, and as active exactly the layers by which samples were sent; for a subscriber its attributes, the numbers of samples received and lost, the size of the last one, its connections and the layers by which samples were received.", "quantifier": "all histories of calls on a publisher or a subscriber, all configurations, contents, ids and sizes, all outcomes of the sending by the layers, all registrations that fit into 4 GiB", "why_tests_cant": "a test compares a few fields after a few calls; that every field follows the history and that no call in between spoils it needs all histories, and the fields pass through serialisation, deserialisation and the monitoring", "anchors": ["ecal/core/src/readwrite/ecal_writer.cpp: CDataWriter::GetRegistrationSample, PrepareWrite, Write, SetAttribute, ClearAttribute, SetDataTypeInformation", "ecal/core/src/pubsub/ecal_publisher.cpp: CPublisher::Send, SetID", "ecal/core/src/readwrite/ecal_reader.cpp: CDataReader::GetRegistrationSample, ApplySample, SetAttribute, ClearAttribute", "ecal/core/src/monitoring/ecal_monitoring_impl.cpp: CMonitoringImpl::RegisterTopic", "ecal/core/include/ecal/types/monitoring.h: STopicMon"]}
{"id": "C132", "title": "A server or client is shown with its methods as they are", "statement": "For every history of calls on a server (methods described, given a callback, removed, requested) the entry that the monitoring of another process makes of its next registration says what is true: host, process, unit, service and ports; exactly the methods described or given a callback and not removed since, each once, with the types and descriptions given last and the number of requests for it; for a client the methods declared or called, with their types and the number of calls made; and the version of the protocol spoken.", "quantifier": "all histories of calls on a server or client, all names and type informations, all outcomes of requests, all registrations that fit into 4 GiB", "why_tests_cant": "a test looks at a server with a few methods after a few calls; that describing, replacing, removing and requesting in any order leave exactly the right methods, types and numbers needs all histories, and the entry passes through serialisation, deserialisation and the monitoring", "anchors": ["ecal/core/src/service/ecal_service_server_impl.cpp: CServiceServerImpl::AddDescription, AddMethodCallback, RemMethodCallback, RequestCallback, GetRegistrationSample", "ecal/core/src/service/ecal_service_client_impl.cpp: CServiceClientImpl::Start, CallAsync, CallBlocking, IncrementMethodCallCount, GetRegistrationSample", "ecal/core/src/monitoring/ecal_monitoring_impl.cpp: CMonitoringImpl::RegisterServer, RegisterClient", "ecal/core/include/ecal/types/monitoring.h: SServerMon, SClientMon, SMethodMon"]}
{"id": "C133", "title": "A dynamic publisher announces and sends its message, and lives as long as its object", "statement": "For every history of making, moving, destroying, creating again, deleting and using publisher objects that hold a message, the topics announced by the process are exactly those of the objects that are created, and each publisher belongs to one object; every send with subscribers transmits once the value given last to the message, by whatever pointer, on the topic and with the id of the publisher; the type announced is the type of the message; moving a publisher into another object cannot be noticed by anybody else; a type name that is not known makes nothing; and no use of an object has undefined effects.", "quantifier": "all histories of calls on any number of publisher objects and messages, all topics, types, values and ids", "why_tests_cant": "a test makes a publisher and sends; that moves, assignments, destruction and re-creation in any order leave no publisher behind and take none away, and that nothing but the owner is affected, needs all histories", "anchors": ["ecal/core/include/ecal/msg/protobuf/dynamic_publisher.h: CDynamicPublisher", "ecal/core/include/ecal/msg/publisher.h: CMsgPublisher", "ecal/core/src/pubsub/ecal_publisher.cpp: CPublisher::CPublisher(CPublisher&&), operator=, Create, Destroy, SetID, Send"]}
{"id": "C134", "title": "Overviews, name lists and single queries agree", "statement": "At any moment, after any history of registrations, unregistrations and expiries: the list of topic names, the overview of all topics and the query for one topic know exactly the same topics; the type in the overview is the type the query gives, also when several publishers and subscribers are equally well described (the one with the smallest id counts); the same for the methods of services and of clients, their names, type names and descriptions; a query that fails clears its results; and without an initialised process everything is empty.", "quantifier": "all histories of registration samples and queries with a clock that does not run backwards, all names, ids and types, all times of the query", "why_tests_cant": "the overview walks a multimap and replaces what is worse, the query builds a set ordered by quality and id and walks that: that two algorithms pick the same entity in every tie and for every order of registration cannot be settled by examples", "anchors": ["ecal/core/src/ecal_util.cpp: GetTopics, GetTopicNames, GetTopicDataTypeInformation, GetServices, GetServiceMethodNames, GetServiceTypeNames, GetServiceDescription, GetClients, GetClientMethodNames, GetClientTypeNames, GetClientDescription, ReduceQualityTopicIdMap, ReduceQualityServiceIdMap", "ecal/core/include/ecal/ecal_util.h: SQualityTopicInfo::operator<, SQualityServiceInfo::operator<, SServiceMethod::operator<", "ecal/core/src/ecal_descgate.cpp: CDescGate::GetTopics, GetServices"]}
{"id": "C135", "title": "UDP samples reach the processes they are meant for", "statement": "Samples and registrations of a process with the network disabled never leave its host; with the network enabled a subscriber of the topic with the same settings on another host receives them exactly if it is within the configured time to live; on the own host it receives them exactly if loopback is configured, while registrations and log messages are received there in any case; a process with the network disabled receives nothing from other hosts; payload, log messages and registrations never mix; and processes with different port settings are separate.", "quantifier": "all configurations, topics, hosts, distances between hosts and sets of listening processes", "why_tests_cant": "a test runs on one host or two with one configuration; which of the combinations of address, port, time to live, broadcast and loopback options on the two sides deliver needs all of them, and other processes on the host take part", "anchors": ["ecal/core/src/readwrite/udp/ecal_writer_udp.cpp: CDataWriterUdpMC::CDataWriterUdpMC, Write", "ecal/core/src/io/udp/ecal_udp_sample_sender.cpp: CSampleSender::InitializeSocket", "ecal/core/src/io/udp/ecal_udp_sample_receiver_asio.cpp: CSampleReceiverAsio", "ecal/core/src/readwrite/udp/ecal_reader_udp.cpp: CUDPReaderLayer::AddSubscription", "ecal/core/src/registration/udp/ecal_registration_sender_udp.cpp: CRegistrationSenderUDP", "ecal/core/src/registration/udp/ecal_registration_receiver_udp.cpp: CRegistrationReceiverUDP", "ecal/core/src/io/udp/ecal_udp_configurations.cpp: GetPayloadPort, GetRegistrationPort, GetLoggingPort, GetMulticastTtl", "ecal/core/src/logging/ecal_log_impl.cpp: CLog::Start"]}
