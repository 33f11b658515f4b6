{"id": "C01", "title": "Mailbox queue is FIFO and exactly-once", "statement": "For any number of goroutines calling Push concurrently with one consumer calling Pop, the sequence of non-nil values returned by Pop is a prefix of one single total order of all Push calls. That order never reorders two pushes of one goroutine, and never puts a Push that started after another Push had returned before it. No value is returned twice and no value is invented.", "quantifier": "every interleaving of atomic steps of any number of producers and one consumer, any values, any length", "why_tests_cant": "A test observes the handful of interleavings the Go scheduler happens to pick; the property must hold for all of them, including preemption between any two atomic operations.", "anchors": ["lib/mpsc/mpsc.go: Queue.Push, Queue.Pop"]}
{"id": "C02", "title": "Mailbox queue loses nothing", "statement": "Whenever no Push is in progress, the values still to be popped are exactly the pushed values not yet popped, in order; Count() equals their number, Empty() is true iff there are none, and repeatedly calling Pop returns all of them and then nil.", "quantifier": "every reachable state of the queue in which no Push or Pop is mid-way, after any history", "why_tests_cant": "A test observes the handful of interleavings the Go scheduler happens to pick; the property must hold for all of them, including preemption between any two atomic operations.", "anchors": ["lib/mpsc/mpsc.go: Queue.Push, Queue.Pop, Queue.Empty, Queue.Count"]}
{"id": "C03", "title": "Mailbox queue never loses a wake-up", "statement": "A consumer that waits on q.C and calls Pop once per received token never goes to sleep for good on a non-empty queue: whenever all Push calls have returned and the consumer is waiting, a non-empty queue implies that a token is ready in q.C. Consequently the consumer loop drains every pushed value.", "quantifier": "every interleaving of any number of producers with a consumer that performs receive-then-Pop rounds", "why_tests_cant": "A lost wake-up needs a particular preemption inside setCount; a test that does not hit it passes.", "anchors": ["lib/mpsc/mpsc.go: Queue.setCount, Queue.C", "core/actor/actor_runtime_impl.go: Runtime.update"]}
{"id": "C04", "title": "Pop reports empty only when nothing completed is waiting", "statement": "If Pop returns nil then every Push that had returned before this Pop started has already been popped.", "quantifier": "every interleaving of producers and the consumer", "why_tests_cant": "A test observes the handful of interleavings the Go scheduler happens to pick; the property must hold for all of them, including preemption between any two atomic operations.", "anchors": ["lib/mpsc/mpsc.go: Queue.Pop"]}
{"id": "C05", "title": "Unbounded buffer is FIFO and exactly-once", "statement": "The values received from Get() are, in order, a prefix of the values given to Put() in the order in which Put acquired the lock; none is lost, duplicated or invented, whatever Load calls happen and whenever.", "quantifier": "every interleaving of any number of goroutines calling Put and Load with receives on the channel", "why_tests_cant": "A test observes the handful of interleavings the Go scheduler happens to pick; the property must hold for all of them, including preemption between any two atomic operations.", "anchors": ["lib/unbounded/unbounded.go: Unbounded.Put, Unbounded.Load, Unbounded.Get"]}
{"id": "C06", "title": "Unbounded buffer never stalls its reader", "statement": "With readers that call Load after each receive, a buffered value is always receivable: whenever no Put or Load is in progress and no reader sits between its receive and its Load, a non-empty backlog implies that the channel is non-empty.", "quantifier": "every interleaving of any number of writers and readers", "why_tests_cant": "A test observes the handful of interleavings the Go scheduler happens to pick; the property must hold for all of them, including preemption between any two atomic operations.", "anchors": ["lib/unbounded/unbounded.go: Unbounded.Put, Unbounded.Load", "lib/pubsub/ps_channel.go: Channel.addHandlers"]}
{"id": "C07", "title": "A future completes once and calls each callback once", "statement": "Only the first Complete takes effect. Every callback given to Then is started exactly once after the future completes (never before), with the first completion's value, whether Then was called before or after Complete and however the calls race.", "quantifier": "every interleaving of any number of Then and Complete calls and of the callback goroutines", "why_tests_cant": "A test observes the handful of interleavings the Go scheduler happens to pick; the property must hold for all of them, including preemption between any two atomic operations.", "anchors": ["core/actor/actor_reenter_impl.go: Future.Then, Future.Complete, Future.IsCompleted"]}
{"id": "C08", "title": "Then chains run to the end", "statement": "The future returned by Then completes with the same value after its callback has returned, so f.Then(a).Then(b) runs b after a in every schedule.", "quantifier": "every interleaving of Then chains of any length with Complete", "why_tests_cant": "Whether the chain breaks depends on whether completion happens before or after Then; a test sees one order.", "anchors": ["core/actor/actor_reenter_impl.go: Future.Then, Future.Complete"]}
{"id": "C09", "title": "Event chain runs before-hooks, handler and after-hooks in order and stops at the first error", "statement": "Executing a chain runs the before hooks in order, then the handler, then the after hooks in order. It stops at the first step that returns an error and returns exactly that error; it returns nil iff all steps ran and none failed.", "quantifier": "every list of before hooks, handler and after hooks with every outcome for each", "why_tests_cant": "The input space is unbounded; a test only samples it.", "anchors": ["core/actor/actor_chain.go: DefaultChain.Execute"]}
{"id": "C10", "title": "An actor runs one handler at a time", "statement": "Message handlers and timer callbacks of one actor never overlap: between the start and the end of one, no other starts.", "quantifier": "every interleaving of senders, timers, reentrant calls and shutdown with the actor loop", "why_tests_cant": "A test observes the handful of interleavings the Go scheduler happens to pick; the property must hold for all of them, including preemption between any two atomic operations.", "anchors": ["core/actor/actor_runtime_impl.go: Runtime.update"]}
{"id": "C11", "title": "An actor handles accepted messages in order, at most once each", "statement": "The messages whose handling starts are, in order, a prefix of the messages in the order they entered the mailbox; no message is handled twice and nothing is handled that Received did not accept.", "quantifier": "every history of an actor: concurrent senders, timers, shutdown, handler errors and panics", "why_tests_cant": "A test observes the handful of interleavings the Go scheduler happens to pick; the property must hold for all of them, including preemption between any two atomic operations.", "anchors": ["core/actor/actor_runtime_impl.go: Runtime.Received, Runtime.update"]}
{"id": "C12", "title": "Handling a message releases its caller exactly once", "statement": "Each accepted message adds one to its wait group and each handled message subtracts one exactly once, whether the handler returns nil, returns an error, panics or does not exist. The group count equals the number of accepted messages not yet finished, and is never negative.", "quantifier": "every history of an actor and every handler outcome", "why_tests_cant": "Panics and missing handlers in every order cannot be enumerated by tests.", "anchors": ["core/actor/actor_runtime_impl.go: Runtime.Received, Runtime.update", "lib/warpwaitgroup/warpwaitgroup.go: WrapWaitGroup"]}
{"id": "C13", "title": "Exit returns only after accepted messages are finished", "statement": "When Exit returns, every message accepted before shutdown began has been handled to completion.", "quantifier": "every interleaving of Exit with senders and handlers, with handlers of any duration under the ten second limit", "why_tests_cant": "The window between popping the last message and finishing its handler is short; a test rarely lands in it.", "anchors": ["core/actor/actor_runtime_impl.go: Runtime.Exit, Runtime.update (checkClose)"]}
{"id": "C14", "title": "An accepted message is handled", "statement": "If Received returns nil then the message is eventually handled, even if the actor is shutting down; after the actor closed, Received returns an error and changes nothing.", "quantifier": "every interleaving of Received with Exit", "why_tests_cant": "A test observes the handful of interleavings the Go scheduler happens to pick; the property must hold for all of them, including preemption between any two atomic operations.", "anchors": ["core/actor/actor_runtime_impl.go: Runtime.Received, Runtime.update, Runtime.Exit"]}
{"id": "C15", "title": "Reentrant-call callbacks run on the actor", "statement": "A callback attached to the future of ReenterCall does not overlap with the handlers of the actor that made the call.", "quantifier": "every interleaving of reentrant calls with message handling", "why_tests_cant": "A test observes the handful of interleavings the Go scheduler happens to pick; the property must hold for all of them, including preemption between any two atomic operations.", "anchors": ["core/actor/actor_runtime_impl.go: Runtime.ReenterCall, Runtime.update", "core/actor/actor_reenter_impl.go: Future.Complete"]}
{"id": "C16", "title": "A reentrant call completes its future exactly once", "statement": "Every ReenterCall future completes exactly once: with the response if the call succeeded, with the error if the call failed, or with the context error if the context ended first, provided the actor keeps running.", "quantifier": "every interleaving of call completion, context cancellation and the actor loop; every call result", "why_tests_cant": "A test observes the handful of interleavings the Go scheduler happens to pick; the property must hold for all of them, including preemption between any two atomic operations.", "anchors": ["core/actor/actor_runtime_impl.go: Runtime.ReenterCall"]}
{"id": "C17", "title": "OnTimer follows its documentation", "statement": "OnTimer(due, interval): the first tick is queued after due (immediately if due is 0), later ticks follow every interval, and an interval of 0 means exactly one tick. No argument crashes the process.", "quantifier": "all due and interval values", "why_tests_cant": "The input space is unbounded; a test only samples it.", "anchors": ["core/actor/actor_runtime_impl.go: Runtime.OnTimer"]}
{"id": "C18", "title": "A cancelled timer stays silent", "statement": "After CancelTimer returns, the callback of the timer does not start again, and CancelTimer never crashes.", "quantifier": "every interleaving of the timer goroutine, the actor loop and CancelTimer", "why_tests_cant": "A test observes the handful of interleavings the Go scheduler happens to pick; the property must hold for all of them, including preemption between any two atomic operations.", "anchors": ["core/actor/actor_runtime_impl.go: Runtime.CancelTimer, Runtime.OnTimer", "core/actor/actor_timer.go: TimerInfo.Stop"]}
{"id": "C19", "title": "Timer Stop and Reset report and set the state they claim", "statement": "Stop returns true iff the timer was active and leaves it inactive; when Reset returns true the timer is active with the requested interval (or the old one if 0 was given).", "quantifier": "every sequence of Stop and Reset calls with any intervals", "why_tests_cant": "The input space is unbounded; a test only samples it.", "anchors": ["core/actor/actor_timer.go: TimerInfo.Stop, TimerInfo.Reset, TimerInfo.IsActive, TimerInfo.Interval"]}
{"id": "C20", "title": "A successful root call means that the whole call tree is finished", "statement": "If a local root Call returns nil then the message and every message sent by nested calls within it, to any depth, has been handled to completion.", "quantifier": "every finite tree of nested calls, every assignment to actors and every scheduling of the handlers, with and without timeouts", "why_tests_cant": "The tree shapes and schedules are unbounded.", "anchors": ["core/node/system_impl.go: NormalSystem.localCall", "core/actor/actor_runtime_impl.go: Runtime.Received, Runtime.update"]}
{"id": "C21", "title": "A nested call returns after its target handled the message", "statement": "ActorContext.Call is a blocking call: when it returns nil the target has handled the message, including when it is made inside a handler.", "quantifier": "every call tree and schedule", "why_tests_cant": "A test observes the handful of interleavings the Go scheduler happens to pick; the property must hold for all of them, including preemption between any two atomic operations.", "anchors": ["core/actor.go: ActorContext.Call", "core/node/system_impl.go: NormalSystem.localCall"]}
{"id": "C22", "title": "The originator of a call chain is recorded and never calls itself", "statement": "Along any chain of Call hops the origin id and type are those of the first actor and the previous type is that of the latest hop. A message whose chain started at an actor is never accepted by that actor: Received returns the self-call error and queues nothing.", "quantifier": "chains of any length through any actors", "why_tests_cant": "The input space is unbounded; a test only samples it.", "anchors": ["core/actor/actor_runtime_impl.go: Runtime.Call, Runtime.Received"]}
{"id": "C23", "title": "Routing prefers local actors and validates the target", "statement": "Call and Send with an empty target return an error without effect. With an actor id hosted on this node they deliver to that actor without any network or address book access; with '~' they deliver to a local actor of the requested type if there is one; otherwise they use the address book.", "quantifier": "every node state, target, type and address book content", "why_tests_cant": "The input space is unbounded; a test only samples it.", "anchors": ["core/node/system_impl.go: NormalSystem.Call, NormalSystem.Send, findLocalOrWildcardActor"]}
{"id": "C24", "title": "Location transparency of calls by id", "statement": "In a cluster whose address book is consistent with where the actors live, Call(id) from any node reaches exactly the actor registered under this id, using no remote hop if it is local and exactly one otherwise; an unregistered id yields an error and reaches nobody.", "quantifier": "every cluster with any number of nodes and actors, every calling node and id", "why_tests_cant": "The input space is unbounded; a test only samples it.", "anchors": ["core/node/system_impl.go: NormalSystem.Call, handleRemoteCall", "core/node/system_acceptor.go: listen.Routing", "core/addressbook/addressbook_impl.go: AddressBook.GetByID"]}
{"id": "C25", "title": "Symbolic routing reaches an actor of the requested type", "statement": "A Call or Send with '?' or '~' that delivers does so to an actor registered with the requested type, after any number of forwarding hops.", "quantifier": "every cluster state consistent with the address book, every random sample and map order", "why_tests_cant": "The input space is unbounded; a test only samples it.", "anchors": ["core/node/system_impl.go: NormalSystem.Call, NormalSystem.Send", "core/addressbook/addressbook_impl.go: AddressBook.GetWildcardActor"]}
{"id": "C26", "title": "Stale-record cleanup removes only this node's dead records", "statement": "Call and Send remove an address book record only if the record says this node hosts an actor that it does not host.", "quantifier": "every cluster state, node address and call", "why_tests_cant": "The input space is unbounded; a test only samples it.", "anchors": ["core/node/system_impl.go: NormalSystem.Call, NormalSystem.Send"]}
{"id": "C27", "title": "A remote call reports remote failure", "statement": "If the remote node cannot deliver or process a call, Call at the caller returns an error.", "quantifier": "every remote outcome", "why_tests_cant": "The input space is unbounded; a test only samples it.", "anchors": ["core/node/system_acceptor.go: listen.Routing", "core/node/system_impl.go: handleRemoteCall"]}
{"id": "C28", "title": "Group and broadcast symbols route as documented", "statement": "Send with '*' delivers to all actors of the type and Send with '#' to a group of them.", "quantifier": "every cluster state", "why_tests_cant": "The input space is unbounded; a test only samples it.", "anchors": ["def/system_def.go: SymbolAll, SymbolGroup", "core/node/system_impl.go: NormalSystem.Send"]}
{"id": "C29", "title": "One actor per id on a node", "statement": "Register creates an actor only if the node has no actor with that id; a duplicate returns ErrActorRegisterRepeat and changes nothing. At no time are two live actors with the same id on one node.", "quantifier": "every history of Register and Unregister calls, sequential or concurrent", "why_tests_cant": "A test observes the handful of interleavings the Go scheduler happens to pick; the property must hold for all of them, including preemption between any two atomic operations.", "anchors": ["core/node/system_impl.go: NormalSystem.Register"]}
{"id": "C30", "title": "The global quantity limit is never exceeded", "statement": "If an actor type has a global quantity limit L > 0, the number of registered actors of this type in the cluster never exceeds L.", "quantifier": "every history of Register and Unregister calls on any number of nodes, sequential or concurrent", "why_tests_cant": "A test observes the handful of interleavings the Go scheduler happens to pick; the property must hold for all of them, including preemption between any two atomic operations.", "anchors": ["core/node/system_impl.go: NormalSystem.Register", "core/addressbook/addressbook_impl.go: AddressBook.GetActorTypeCount"]}
{"id": "C31", "title": "A node-unique type has at most one actor per node", "statement": "If an actor type is declared NodeUnique, no node ever hosts two actors of this type.", "quantifier": "every history of Register and Unregister calls, every limit", "why_tests_cant": "The input space is unbounded; a test only samples it.", "anchors": ["core/node/system_impl.go: NormalSystem.Register", "core/actor.go: ActorConstructor.NodeUnique"]}
{"id": "C32", "title": "Registered means discoverable, unregistered means gone", "statement": "After Register(ty, id) returned on a node, lookup by id from any node gives that node's address and lookup by type includes it, until it is unregistered; after Unregister neither lookup returns it. Operations on other ids do not disturb it.", "quantifier": "every sequence of address book operations by any number of nodes that use distinct ids", "why_tests_cant": "The input space is unbounded; a test only samples it.", "anchors": ["core/addressbook/addressbook_impl.go: AddressBook.Register, Unregister, GetByID, GetByType"]}
{"id": "C33", "title": "Node load equals the weight of its registered actors", "statement": "The recorded total weight of a node equals the sum of the weights of the actors registered by that node, and the weight recorded per type equals the sum over that type.", "quantifier": "every sequence of Register and Unregister calls with any weights on any number of nodes", "why_tests_cant": "The input space is unbounded; a test only samples it.", "anchors": ["core/addressbook/addressbook_impl.go: AddressBook.Register, Unregister"]}
{"id": "C34", "title": "Clear removes this node's registrations and nothing else", "statement": "After Clear on a node, no lookup by id or by type returns an actor of this node, its load record is gone, and the records of all other nodes are unchanged.", "quantifier": "every address book state reachable by nodes that use distinct ids", "why_tests_cant": "The input space is unbounded; a test only samples it.", "anchors": ["core/addressbook/addressbook_impl.go: AddressBook.Clear"]}
{"id": "C35", "title": "Wildcard lookup returns a least-loaded candidate", "statement": "GetWildcardActor returns an actor of the requested type, among the sampled candidates one whose node has the least recorded load; with at most ten candidates this is the least over all. It fails iff no candidate has a readable load.", "quantifier": "every set of candidates, every load assignment and every random sample", "why_tests_cant": "The input space is unbounded; a test only samples it.", "anchors": ["core/addressbook/addressbook_impl.go: AddressBook.GetWildcardActor"]}
{"id": "C36", "title": "Node selection returns the least-loaded node", "statement": "GetLowWeightNodeForActor returns a registered node whose recorded load is the least.", "quantifier": "every set of nodes and loads, and every order in which Go iterates over the map", "why_tests_cant": "Go randomises map iteration; a test sees a few orders and few nodes.", "anchors": ["core/addressbook/addressbook_impl.go: AddressBook.GetLowWeightNodeForActor"]}
{"id": "C37", "title": "Registration is all or nothing", "statement": "If the address book Register fails or its node crashes at any point, no record of the actor is left behind; if it succeeds all records are present.", "quantifier": "every crash point and every connection failure inside Register", "why_tests_cant": "Crash points between individual store commands cannot be hit reliably by a test.", "anchors": ["core/addressbook/addressbook_impl.go: AddressBook.Register"]}
{"id": "C38", "title": "Actor ids are unique in the cluster", "statement": "Two nodes never hold a registration for the same actor id at the same time.", "quantifier": "every sequence of Register calls on any number of nodes", "why_tests_cant": "The input space is unbounded; a test only samples it.", "anchors": ["core/addressbook/addressbook_impl.go: AddressBook.Register"]}
{"id": "C39", "title": "Channel delivery is in order and at most once", "statement": "Within one channel of a topic each published message is delivered to at most one subscriber mailbox, at most once; each subscriber receives its messages in publication order; and nothing is delivered that was not published.", "quantifier": "every interleaving of publishers, subscriber read loops, handlers and crashes, any number of subscribers and channels", "why_tests_cant": "A test observes the handful of interleavings the Go scheduler happens to pick; the property must hold for all of them, including preemption between any two atomic operations.", "anchors": ["lib/pubsub/ps_channel.go: Channel.loop, Channel.addHandlers", "lib/pubsub/ps_topic.go: Topic.Pub"]}
{"id": "C40", "title": "Every channel of a topic receives every message", "statement": "A message published to a topic after a channel was subscribed is eventually delivered on that channel, whatever other channels the topic has.", "quantifier": "every interleaving of publishers and the loops of all channels of the topic", "why_tests_cant": "A test observes the handful of interleavings the Go scheduler happens to pick; the property must hold for all of them, including preemption between any two atomic operations.", "anchors": ["lib/pubsub/ps_channel.go: Channel.addHandlers"]}
{"id": "C41", "title": "Publishing reports errors instead of crashing", "statement": "System.Pub returns an error for an empty event or an unusable topic and never panics.", "quantifier": "every topic name and event, every history of subscriptions", "why_tests_cant": "The input space is unbounded; a test only samples it.", "anchors": ["core/node/system_impl.go: NormalSystem.Pub", "lib/pubsub/ps_mgr.go: Pubsub.GetTopic", "lib/pubsub/ps_topic.go: Topic.Pub"]}
{"id": "C42", "title": "The distributed lock excludes within its lease", "statement": "At any instant at most one holder of a key has a lease that has not yet expired, whatever the clients do.", "quantifier": "every interleaving of Lock, Unlock and time with any number of clients and keys", "why_tests_cant": "A test observes the handful of interleavings the Go scheduler happens to pick; the property must hold for all of them, including preemption between any two atomic operations.", "anchors": ["lib/dismutex/dismutex.go: Lock, Unlock"]}
{"id": "C43", "title": "Unlock releases only one's own lock", "statement": "Unlock(key, value) returns true iff the key is currently held with this value, and then frees it; otherwise it changes nothing. In particular a holder whose lease expired cannot release the next holder's lock.", "quantifier": "every lock state, key and value, and every history", "why_tests_cant": "A test observes the handful of interleavings the Go scheduler happens to pick; the property must hold for all of them, including preemption between any two atomic operations.", "anchors": ["lib/dismutex/dismutex.go: Unlock, delScript"]}
{"id": "C44", "title": "Wire format round trip", "statement": "For every message m, decoding the bytes produced by encoding m gives m back, including nested header, absent header, negative timestamps and arbitrary bytes.", "quantifier": "all messages: any field contents of any length", "why_tests_cant": "The input space is unbounded; a test only samples it.", "anchors": ["router/router.pb.go: Message.MarshalToSizedBuffer, Header.MarshalToSizedBuffer, Message.Unmarshal, Header.Unmarshal, RouteReq, RouteRes"]}
{"id": "C45", "title": "Size is exact", "statement": "Size() equals the number of bytes that Marshal produces, so the preallocated buffer is exactly filled and the backwards writer never runs out of it.", "quantifier": "all messages", "why_tests_cant": "The input space is unbounded; a test only samples it.", "anchors": ["router/router.pb.go: Header.Size, Message.Size, sovRouter, encodeVarintRouter, Marshal"]}
{"id": "C46", "title": "Decoding never crashes", "statement": "Unmarshal on any byte string returns either a message or an error; it never reads out of bounds and always terminates.", "quantifier": "all byte strings", "why_tests_cant": "Malformed inputs are unbounded; fuzzing samples them.", "anchors": ["router/router.pb.go: Header.Unmarshal, Message.Unmarshal, RouteReq.Unmarshal, RouteRes.Unmarshal, skipRouter"]}
{"id": "C47", "title": "Unknown fields are ignored and the last value wins", "statement": "Adding well-formed fields with unknown numbers anywhere between the fields of a message does not change the decoded message, and if a field occurs twice the later value is the result.", "quantifier": "all messages and all well-formed unknown fields", "why_tests_cant": "The input space is unbounded; a test only samples it.", "anchors": ["router/router.pb.go: Header.Unmarshal, skipRouter"]}
{"id": "C48", "title": "Custom fields merge", "statement": "WithReqCustomFields sets the given keys (the last value wins for repeated keys) and keeps all other existing keys; if the existing data cannot be decoded it records an error and leaves the data as it is. The same holds for the response.", "quantifier": "all existing contents and all attribute lists, for every lossless serializer", "why_tests_cant": "The input space is unbounded; a test only samples it.", "anchors": ["router/msg/msg_custom_map.go: WithReqCustomFields, WithReqCustomFieldsMap, WithResCustomFields"]}
{"id": "C49", "title": "A custom integer comes back as it was set", "statement": "Setting a custom field to an integer and reading it back at the same integer type gives the same value.", "quantifier": "all integer types and all values of each", "why_tests_cant": "The input space is unbounded; a test only samples it.", "anchors": ["router/msg/msg_custom_map.go: GetReqCustomField, GetResCustomField"]}
{"id": "C50", "title": "WithReqHeader copies the header", "statement": "After WithReqHeader(h) with a non-nil header the request header equals h in every field.", "quantifier": "all headers", "why_tests_cant": "The input space is unbounded; a test only samples it.", "anchors": ["router/msg/msg.go: MsgBuilder.WithReqHeader"]}
{"id": "C51", "title": "Concurrent calls are bounded and slots are not leaked", "statement": "At most MaxConcurrentCalls calls of Client.Call are in flight; each call that acquired a slot gives it back when it returns, whatever its result, and a call that did not acquire one does not give one back.", "quantifier": "every interleaving of any number of callers, contexts that end at any point, and all call outcomes", "why_tests_cant": "A test observes the handful of interleavings the Go scheduler happens to pick; the property must hold for all of them, including preemption between any two atomic operations.", "anchors": ["lib/grpc/client.go: Client.Call"]}
{"id": "C52", "title": "Send works for every reachable node", "statement": "A Send to an actor on another node reaches it whenever a Call to the same actor would.", "quantifier": "every history of calls and sends", "why_tests_cant": "The input space is unbounded; a test only samples it.", "anchors": ["core/node/system_impl.go: handleRemoteSend", "lib/grpc/client.go: Client.Call, Client.CallWait, getConn"]}
{"id": "C53", "title": "One connection per address", "statement": "The client opens at most one connection per address and keeps using it.", "quantifier": "every interleaving of concurrent calls", "why_tests_cant": "A test observes the handful of interleavings the Go scheduler happens to pick; the property must hold for all of them, including preemption between any two atomic operations.", "anchors": ["lib/grpc/client.go: Client.CallWait"]}
{"id": "C54", "title": "Cron field denotes the documented set", "statement": "A cron field made of '*', values, ranges and steps matches exactly the values that the notation denotes, with 7 equal to 0 for weekdays and ranges that wrap around.", "quantifier": "all well-formed fields for all six field kinds and all times", "why_tests_cant": "The input space is unbounded; a test only samples it.", "anchors": ["lib/timer/timer_express.go: parseExpress, IsMatch"]}
{"id": "C55", "title": "Parsing a cron field terminates", "statement": "parseExpress terminates for every input string, with an error for ill-formed ones.", "quantifier": "all strings", "why_tests_cant": "Non-termination cannot be observed by a test, and the inputs are unbounded.", "anchors": ["lib/timer/timer_express.go: parseExpress"]}
{"id": "C56", "title": "Error codes compare by code", "statement": "Equality of codes is an equivalence that depends on the numeric code only; the cause of nil is OK, the cause of a code (wrapped or not) is that code, and any other error is never equal to OK.", "quantifier": "all codes and all errors", "why_tests_cant": "The input space is unbounded; a test only samples it.", "anchors": ["lib/errcode/errcode.go: Codes, Equal, EqualError, Cause, String"]}
{"id": "C57", "title": "Next version is the smallest newer version", "statement": "GetNextVersion(v) returns the smallest registered version greater than v, or v if there is none; iterating it visits every newer version in ascending order and stops.", "quantifier": "all lists of registered strategies in any order and all versions", "why_tests_cant": "The input space is unbounded; a test only samples it.", "anchors": ["core/entity.go: GetNextVersion, GetVerStrategy, RegisterVersionStrategy"]}
{"id": "C58", "title": "A token round-trips and is authenticated", "statement": "Parse(Create(id)) returns id for each non-empty id; Parse accepts only strings whose signature is valid under the configured key, and never returns an empty id.", "quantifier": "all ids, keys and byte strings", "why_tests_cant": "The input space is unbounded; a test only samples it.", "anchors": ["lib/token/token.go: Create, Parse"]}
{"id": "C59", "title": "The span reporter accounts for every span", "statement": "Each reported span is delivered, filtered by the sampling rule, still queued, or counted as dropped; delivery is in report order, and Close is idempotent and delivers everything queued before it.", "quantifier": "every interleaving of reporters, the worker and Close", "why_tests_cant": "A test observes the handful of interleavings the Go scheduler happens to pick; the property must hold for all of them, including preemption between any two atomic operations.", "anchors": ["lib/tracer/slow_reporter.go: Report, Close, processQueue"]}
{"id": "C60", "title": "Builder options are private to a builder", "statement": "Setting an option on one actor builder is not visible through another builder of the same type nor in later builders.", "quantifier": "every sequence of builder creations and WithOpt calls", "why_tests_cant": "The input space is unbounded; a test only samples it.", "anchors": ["core/actor/actor_build_impl.go: ActorLoaderBuilder.WithOpt", "tests/mock/mock_loader.go: Builder"]}
{"id": "C61", "title": "A tick task runs its handler one at a time", "statement": "At any moment at most one call of the handler of a tick task is running.", "quantifier": "every interleaving of StartTask, StopTask, ticks, delays and handler outcomes, including panics", "why_tests_cant": "A test observes the handful of interleavings the Go scheduler happens to pick; the property must hold for all of them, including preemption between any two atomic operations.", "anchors": ["lib/timer/timer_tick.go: TimerTask.start, startTickTask", "lib/timer/timer.go: TimerInfo.stop"]}
{"id": "C62", "title": "A stopped tick task stays silent", "statement": "When StopTask of a running task has returned, its handler is not called again until the task is started again, and StopTask never crashes the process.", "quantifier": "every interleaving of StartTask, StopTask, ticks, delays and handler outcomes", "why_tests_cant": "The violation needs a particular timing of independent goroutines (or a failure at a particular moment) that a test does not produce on demand.", "anchors": ["lib/timer/timer.go: TimerInfo.stop, TimerService.StopTask", "lib/timer/timer_tick.go: startTickTask"]}
{"id": "C63", "title": "A round of a tick task calls its hooks in order", "statement": "Each round calls OnBeforeHandler, then the handler unless IsEnd is set, then ExceptionHandler if the handler returned an error, then OnEndHandler; a panic in any of them is given to ExceptionHandler and does not end the process.", "quantifier": "every task, service and outcome of the hooks", "why_tests_cant": "The input space is unbounded; a test only samples it.", "anchors": ["lib/timer/timer_tick.go: startTickTask"]}
{"id": "C64", "title": "The timer service acts on the task it is asked for", "statement": "StartTask(id), StopTask(id) and Stop(id) act on the task added under id and on no other; Stop returns an error iff there is none; a task that was added can be stopped through the service as long as it was not removed.", "quantifier": "every sequence of service calls", "why_tests_cant": "The input space is unbounded; a test only samples it.", "anchors": ["lib/timer/timer.go: TimerService"]}
{"id": "C65", "title": "The wait group wrapper counts what it waits for", "statement": "Count is the number of Adds minus the number of Dones whenever no operation is in progress, Wait returns only after a moment at which every earlier Add was matched by a Done, and no operation panics if every Done follows its Add.", "quantifier": "every interleaving of Add, Done, Wait and Count", "why_tests_cant": "A test observes the handful of interleavings the Go scheduler happens to pick; the property must hold for all of them, including preemption between any two atomic operations.", "anchors": ["lib/warpwaitgroup/warpwaitgroup.go"]}
{"id": "C66", "title": "A graceful shutdown leaves no actor running", "statement": "If WaitClose reports a graceful shutdown then every actor of the node has finished its Exit, the acceptor was closed before the first actor was asked to exit, and the node's records are gone from the address book.", "quantifier": "every interleaving of the shutdown with actors, registrations and the timeout", "why_tests_cant": "The violation needs a particular timing of independent goroutines (or a failure at a particular moment) that a test does not produce on demand.", "anchors": ["core/node/node_process_impl.go: WaitClose", "core/node/system_impl.go: Exit"]}
{"id": "C67", "title": "Shutdown ends within 30 seconds", "statement": "WaitClose returns at most 30 seconds after the signal, whatever actors and remote callers do.", "quantifier": "every timing of actors, pending calls and Redis", "why_tests_cant": "The violation needs a particular timing of independent goroutines (or a failure at a particular moment) that a test does not produce on demand.", "anchors": ["core/node/node_process_impl.go: WaitClose", "core/node/system_impl.go: Exit", "lib/grpc/server.go: Close"]}
{"id": "C68", "title": "A subscription's callback handles the messages of its channel", "statement": "After Sub(topic, channel, callback) succeeded, every message delivered on the channel to this actor is handled by the callback.", "quantifier": "every sequence of OnEvent and Sub calls and every published event", "why_tests_cant": "The input space is unbounded; a test only samples it.", "anchors": ["core/actor/actor_runtime_impl.go: Sub, OnEvent, update", "lib/pubsub/ps_channel.go: addHandlers"]}
{"id": "C69", "title": "Topic options take effect on the first subscription", "statement": "If the first subscription of an actor to a topic gives a time to live, the topic expires after that time.", "quantifier": "every sequence of subscriptions with any options", "why_tests_cant": "The input space is unbounded; a test only samples it.", "anchors": ["core/actor/actor_runtime_impl.go: Sub", "core/node/system_impl.go: Sub", "lib/pubsub/ps_topic.go: newTopic"]}
{"id": "C70", "title": "An event has the handler registered first", "statement": "OnEvent registers a handler iff the event has none yet; otherwise it returns an error and changes nothing. A message is handled by the handler of its event, and by none if there is none.", "quantifier": "every sequence of registrations and every event", "why_tests_cant": "The input space is unbounded; a test only samples it.", "anchors": ["core/actor/actor_runtime_impl.go: OnEvent, update"]}
{"id": "C71", "title": "Context values are the last ones set", "statement": "GetValue(key) returns the value of the last WithValue(key, v), or what the actor was created with; no WithValue of a user changes which actor or system the context acts on.", "quantifier": "every sequence of WithValue calls with any keys and values", "why_tests_cant": "The input space is unbounded; a test only samples it.", "anchors": ["core/actor/actor_context_impl.go"]}
{"id": "C72", "title": "GetCmdsByteSlice reports failures", "statement": "GetCmdsByteSlice returns the values of all commands in order and no error if all succeeded, and an error if any failed.", "quantifier": "every list of command results", "why_tests_cant": "The input space is unbounded; a test only samples it.", "anchors": ["3rd/redis/client_utils.go: GetCmdsByteSlice"]}
{"id": "C73", "title": "Files hold what was saved", "statement": "After WriteJSON(path, data) or SaveFile(data, path) succeeded the file contains exactly data, and ReadFile returns it.", "quantifier": "every file content before and after", "why_tests_cant": "The input space is unbounded; a test only samples it.", "anchors": ["utils/file/file.go: WriteJSON, SaveFile, ReadFile"]}
{"id": "C74", "title": "Name and extension make up the file name", "statement": "For every file name, GetFileRealName(f) + GetFileExt(f) = f, the extension is empty or begins with the last dot of f.", "quantifier": "every string", "why_tests_cant": "The input space is unbounded; a test only samples it.", "anchors": ["utils/file/file.go: GetFileExt, GetFileRealName"]}
{"id": "C75", "title": "Every configured MongoDB connection is usable", "statement": "After Build has returned nil, Collection(name, c) works for the name of every connection given to Build.", "quantifier": "every list of connections, every failure of the driver, every repetition of Build", "why_tests_cant": "The input space is unbounded; a test only samples it.", "anchors": ["3rd/mgo/mgr.go: Build, Collection", "3rd/mgo/mgr_opts.go: AppendConn"]}
{"id": "C76", "title": "Redis client options take effect in any order", "statement": "Each option given to BuildClientWithOption has its effect in the client, whatever the order of the options, and a client is not affected by the options of earlier ones.", "quantifier": "every list of options and every sequence of builds", "why_tests_cant": "The input space is unbounded; a test only samples it.", "anchors": ["3rd/redis/client.go: BuildClientWithOption", "3rd/redis/client_opt.go"]}
{"id": "C77", "title": "Short names are the last component", "statement": "funcShortName returns the part of a function name after the last dot of its last path component and shortFile the part of a path after its last slash.", "quantifier": "every string", "why_tests_cant": "The input space is unbounded; a test only samples it.", "anchors": ["lib/log/options.go: funcShortName", "lib/errcode/errcode.go: shortFile"]}
{"id": "C78", "title": "Log flows keep every field", "statement": "TaDataFields(key, p) contains each field of the flow exactly once, either at the top level, in order, or, if p holds for its name, inside the object stored under key; RegisterLogField never stores two fields with one name.", "quantifier": "every list of fields and every predicate", "why_tests_cant": "The input space is unbounded; a test only samples it.", "anchors": ["lib/log/flow.go", "lib/log/field.go: RegisterLogField"]}
{"id": "C79", "title": "A log call writes at most one record of its level", "statement": "Log(level, ...) writes exactly one record, of that level and with the server tag, if the level is enabled, and none otherwise; likewise SystemLog.", "quantifier": "every level and threshold", "why_tests_cant": "The input space is unbounded; a test only samples it.", "anchors": ["lib/log/helper.go"]}
{"id": "C80", "title": "Trace contexts survive a remote call", "statement": "The server span of a remote call is a child of the client span, which is a child of the caller's span; the caller's outgoing metadata are not changed, and all other metadata arrive unchanged.", "quantifier": "every outgoing metadata map, span and tracer", "why_tests_cant": "The input space is unbounded; a test only samples it.", "anchors": ["lib/span/span_grpc.go"]}
{"id": "C81", "title": "A call span is finished exactly once", "statement": "Every span started by Begin is finished by End exactly once, End without Begin does nothing, and the span is a child of the span in the context, if any.", "quantifier": "every sequence of Begin and End", "why_tests_cant": "The input space is unbounded; a test only samples it.", "anchors": ["lib/span/span_call.go", "core/node/system_impl.go: Call"]}
{"id": "C82", "title": "Transactions of the TCC example are atomic", "statement": "When the tcc_succ handler of mock actor A is done, both participants have confirmed, or both are as they were before.", "quantifier": "every outcome of the four calls and every interleaving of transactions", "why_tests_cant": "The violation needs a particular timing of independent goroutines (or a failure at a particular moment) that a test does not produce on demand.", "anchors": ["tests/mock/mock_actor_a.go: tcc_succ", "tests/mock/mock_actor_b.go", "tests/mock/mock_actor_c.go"]}
{"id": "C83", "title": "A cancelled transaction has no effect", "statement": "Cancelling a transaction at a participant restores the value it had before the try and leaves other transactions alone; confirm and cancel succeed iff the transaction is pending.", "quantifier": "every sequence of try, confirm and cancel of any transactions", "why_tests_cant": "The input space is unbounded; a test only samples it.", "anchors": ["tests/mock/mock_actor_b.go", "tests/mock/mock_actor_c.go"]}
{"id": "C84", "title": "A node starts each static actor once", "statement": "AssignToNode registers every non-dynamic type of the factory exactly once, under the id node_ID (or node_name if the type has no id), and no dynamic type.", "quantifier": "every factory, map order and outcome of registrations", "why_tests_cant": "The input space is unbounded; a test only samples it.", "anchors": ["tests/mock/mock_loader.go: AssignToNode"]}
{"id": "C85", "title": "A dynamically picked actor gets its options", "statement": "An actor created through Pick sees exactly the options of its builder (and its id and type), on whichever node it is created.", "quantifier": "every sequence of picks and registrations", "why_tests_cant": "The violation needs a particular timing of independent goroutines (or a failure at a particular moment) that a test does not produce on demand.", "anchors": ["tests/mock/mock_loader.go: Pick", "tests/mock/actor_dynamic_picker.go", "tests/mock/actor_dynamic_register.go"]}
{"id": "C86", "title": "A value accepted for JSON can be encoded", "statement": "If isJSONSerializable accepts a value then encoding/json can encode it.", "quantifier": "every value of any depth", "why_tests_cant": "The input space is unbounded; a test only samples it.", "anchors": ["router/msg/msg_utils.go: isJSONSerializable"]}
{"id": "C87", "title": "Custom objects come back as they were set", "statement": "GetReqCustomObject after WithReqCustomObject(v) gives v; if encoding fails an error is recorded and the message is unchanged. The same for the response.", "quantifier": "every object and previous contents", "why_tests_cant": "The input space is unbounded; a test only samples it.", "anchors": ["router/msg/map_custom_object.go"]}
{"id": "C88", "title": "Every queued tick runs its callback once, in order", "statement": "The actor loop runs the callback of each queued tick exactly once and in the order in which the ticks were queued; once the actor is closed no callback starts.", "quantifier": "any number of timers, every interleaving of timer goroutines, callers and the loop", "why_tests_cant": "A test observes the handful of interleavings the Go scheduler happens to pick and a few timers; the property must hold for all of them.", "anchors": ["core/actor/actor_runtime_impl.go: Runtime.update, Runtime.OnTimer", "core/actor/actor_timer.go: TimerInfo.Execute"]}
{"id": "C89", "title": "NextTrigger returns the time of the next tick", "statement": "At every moment NextTrigger of an active timer returns the time at which its next tick is due.", "quantifier": "all due times and intervals, all numbers of ticks, all calls of Reset", "why_tests_cant": "A test looks at one timer at one moment; the property is about all of them.", "anchors": ["core/actor/actor_timer.go: TimerInfo.NextTrigger, TimerInfo.Reset, NewTimerInfo"]}
{"id": "C90", "title": "A logger writes each record once to the destinations wanted", "statement": "NewLogger makes a logger unless an option or the opening of the file fails; a record at or above the level of the last LevelOption is written once to each destination the options ask for and to no other.", "quantifier": "every list of options, every level, every state of the file system", "why_tests_cant": "The input space is unbounded; a test only samples it.", "anchors": ["lib/log/options.go: NewOptions, NewLogger", "lib/log/rotation.go"]}
{"id": "C91", "title": "Callers are shown as the options say, and loggers are independent", "statement": "If the caller is wanted, every record shows file and line, and the function if wanted, of the frame that the skip option selects; otherwise none. Making one logger does not change the behaviour of another made later.", "quantifier": "every list of options, every call stack, every sequence of two loggers", "why_tests_cant": "The input space is unbounded; a test only samples it.", "anchors": ["lib/log/options.go: NewLogger"]}
{"id": "C92", "title": "Every option of a logger has an effect", "statement": "For every option there are circumstances in which the logger differs from the one made without it.", "quantifier": "all options with all arguments", "why_tests_cant": "The input space is unbounded; a test only samples it.", "anchors": ["lib/log/options.go", "lib/log/rotation.go"]}
{"id": "C93", "title": "Calls pass the interceptors of the server", "statement": "A server is built iff it has a handler; the last address counts; calls and streams pass the interceptors in the order of the options up to the first that rejects; the acceptor of a node turns panics into errors.", "quantifier": "every list of options, every number of interceptors, every result of the handler", "why_tests_cant": "The input space is unbounded; a test only samples it.", "anchors": ["lib/grpc/server.go: BuildServerWithOption", "lib/grpc/server_opt.go", "core/node/system_acceptor.go: NewAcceptor"]}
{"id": "C94", "title": "Close ends the server", "statement": "When Close of the server has returned, no listener is open and no call is running; no call starts after Close was called.", "quantifier": "every interleaving of Init, Run, Close and calls", "why_tests_cant": "A test observes the handful of interleavings the Go scheduler happens to pick; the property must hold for all of them.", "anchors": ["lib/grpc/server.go: Init, Run, Close"]}
{"id": "C95", "title": "A tracer has the options and factories it was built with", "statement": "Name, sampler, rate and transport of the tracer are those given last; GetSpan uses the first factory registered under the name and returns an error iff there is none or it fails.", "quantifier": "every list of options, every name", "why_tests_cant": "The input space is unbounded; a test only samples it.", "anchors": ["lib/tracer/jaegertracing.go: BuildWithOption, GetSpan", "lib/tracer/opts.go"]}
{"id": "C96", "title": "Operations on MongoDB are traced", "statement": "With a tracer, each operation of a collection begins one span, shows its command, filter and documents, runs, and ends the span, even if it panics; different operations have different names; the result is that of the operation.", "quantifier": "every operation, every configuration, all arguments and results", "why_tests_cant": "The input space is unbounded; a test only samples it.", "anchors": ["3rd/mgo/collection.go", "3rd/mgo/mgr.go: Collection"]}
{"id": "C97", "title": "Every option of a tracer has an effect", "statement": "For every option (other than an empty list of factories) there are circumstances in which the tracer differs from the one built without it; so requests and spans above the limits are logged.", "quantifier": "all options with all arguments", "why_tests_cant": "The input space is unbounded; a test only samples it.", "anchors": ["lib/tracer/opts.go", "lib/tracer/slow_reporter.go", "lib/tracer/jaegertracing.go"]}
{"id": "C98", "title": "A message wrapper can be used for one call after another", "statement": "However often one goroutine uses one wrapper for calls, one after the other and whatever their outcome (accepted, refused, timed out, context ended), the process does not panic, and a call that returns nil has its message handled, unless its own waiter gave up after the call timeout.", "quantifier": "all numbers of calls, all outcomes, all interleavings of the caller, the waiter goroutines and the actors", "why_tests_cant": "Needs two goroutines left over from an earlier call to be between two particular steps when the next call begins; a test cannot enumerate the schedules.", "anchors": ["core/node/system_impl.go: localCall", "lib/warpwaitgroup/warpwaitgroup.go: Add, Done", "core/actor/actor_runtime_impl.go: Received, update"]}
{"id": "C99", "title": "No shared map is accessed while another goroutine writes to it", "statement": "Whatever functions of the package goroutines call, as many and as often as they like, no goroutine is inside an access to a shared map (actors of a node, local ids of the address book, topics, channels, tick tasks, handlers and timers of an actor, options of a builder, versions, databases) while another one writes to it; and no goroutine is stuck for good at a lock of these maps.", "quantifier": "all sets of functions called, all numbers of goroutines and calls, all interleavings", "why_tests_cant": "Needs one goroutine inside a map access exactly when another writes; the race detector only sees schedules that happen.", "anchors": ["core/node/system_impl.go: Register, Unregister, Actors, Exit", "core/addressbook/addressbook_impl.go: Register, Unregister, GetByID", "lib/pubsub/ps_mgr.go", "lib/pubsub/ps_topic.go: Sub", "lib/timer/timer.go: TimerService", "core/actor/actor_runtime_impl.go: OnEvent, OnTimer, CancelTimer, Sub, Exit", "core/actor/actor_build_impl.go: WithOpt, GetOptions", "core/entity.go: RegisterVersionStrategy", "3rd/mgo/mgr.go: Build, Collection"]}
{"id": "C100", "title": "A call to another node carries the request there and the response back", "statement": "The actor that handles a call gets the request as the caller built it, byte by byte, however many nodes the call passes; when the call returns nil, the caller's response and error are those the actor left, as if the actor were on the caller's node; when it fails, the response is unchanged.", "quantifier": "every cluster, target, request, response and behaviour of the actor, any number of hops, every loss of a request or an answer", "why_tests_cant": "The input space is unbounded, and an answer must be lost between particular nodes; a test only samples it.", "anchors": ["core/node/system_impl.go: Call, handleRemoteCall", "core/node/system_acceptor.go: listen.Routing", "router/msg/msg.go: NewBuilder", "router/router.pb.go: RouteReq, RouteRes"]}
{"id": "C101", "title": "A failed Lock means the lock was taken", "statement": "If Lock fails (with a token that is not empty) it has made four attempts at least 700 ms apart within the call, and at each of them somebody had the lock, or Redis gave no answer.", "quantifier": "all numbers of goroutines, keys and calls, all interleavings, all lost commands and lost answers, all times", "why_tests_cant": "Needs the answer of Redis to a command that was executed to be lost, and all interleavings of several callers over the lease; a test with a live Redis sees neither.", "anchors": ["lib/dismutex/dismutex.go: Lock, Unlock", "3rd/redis/client.go: SetNx"]}
{"id": "C102", "title": "Overlapping calls of the address book", "statement": "However calls of Register, Unregister, GetByID, GetByType and Clear on any nodes overlap, a lookup shows every actor whose Register has returned and whose Unregister (or Clear of its node) has not been called, and nothing that is neither registered nor being registered or unregistered; when no writing call is in progress the recorded loads are the sums of the weights of the registered actors; after Clear of a node nothing of it is left.", "quantifier": "all numbers of nodes, goroutines and calls, all interleavings at the level of Redis commands and map accesses, all failures of lookups", "why_tests_cant": "The pipelines are not transactions, so a call of one goroutine can come between any two commands of another; a test sees a few of the interleavings, and those that break the records need one particular command boundary.", "anchors": ["core/addressbook/addressbook_impl.go: Register, Unregister, GetByID, GetByType, Clear"]}
{"id": "C103", "title": "The result of a client call tells what happened", "statement": "A call of the gRPC client sends its request at most once, to the address it was called for; it returns nil exactly if the request was answered, the error of the invocation exactly if it was sent and not answered, and any other error only if nothing was sent.", "quantifier": "all limits, all numbers of goroutines and calls, all interleavings, all results of dialing and invoking, all ends of contexts", "why_tests_cant": "Needs every interleaving of calls that share connections and slots, with every failure of the network at every point.", "anchors": ["lib/grpc/client.go: Call, CallWait, getConn, newconn"]}
{"id": "C104", "title": "Creating and closing a topic that is in use", "statement": "However calls of newTopic, Pub, Sub and Close for one topic overlap, in any number of processes, subscribers receive only published messages, and Close deletes a topic only if nobody uses it: no message for which Pub returned nil and no channel for which Sub returned nil is lost by it.", "quantifier": "all numbers of processes, goroutines, channels and calls, all interleavings at the level of Redis commands, all failures of commands and losses of answers, all expiries", "why_tests_cant": "newTopic makes its entry and deletes it in two commands and Close checks twice and deletes in three; what goes wrong needs a call of another process between two particular commands.", "anchors": ["lib/pubsub/ps_topic.go: newTopic, Pub, Sub, Close", "lib/pubsub/ps_channel.go: newChannel, loop"]}
{"id": "C105", "title": "A Redis wrapper sends its command and returns what it gives", "statement": "Each function of the Redis client sends exactly one command, the one it is named for, with its arguments in their order and in the caller's context, keys get the time to live the caller asks for, and the caller gets the value or the error of Redis; none panics when there is a client.", "quantifier": "all functions of the client, all arguments (any keys, values, numbers, durations and lists of them), all replies, with and without tracing", "why_tests_cant": "There are fifty functions with unbounded arguments; tests need a Redis server and use a few keys and round durations.", "anchors": ["3rd/redis/client.go: TxPipelined, ..., Keys", "3rd/redis/client_utils.go: doTracing"]}
{"id": "C106", "title": "Redis operations are traced", "statement": "Every function of the Redis client is traced: a span is begun before the command and ended exactly once after it, also if the client panics, and shows the key.", "quantifier": "all functions of the client, all arguments, all replies, all behaviours of the tracer", "why_tests_cant": "Tests of the client look at values, not at spans; no test has a tracer.", "anchors": ["3rd/redis/client_utils.go: doTracing", "3rd/redis/client.go: TxPipelined, ..., Keys"]}
{"id": "C107", "title": "Calls do not wait for each other in a circle", "statement": "Once nothing moves by itself any more, every Call and Send has returned and every accepted message has been handled, without any timeout: actors do not wait for each other in a circle, and the check for self-calls in Received keeps them from it.", "quantifier": "all call graphs among any number of actors, any number of goroutines, wait groups and remote calls, all interleavings", "why_tests_cant": "A circle needs a particular interleaving of calls from several places; tests call in one direction, and a timeout hides what is left.", "anchors": ["core/node/system_impl.go: NormalSystem.localCall, NormalSystem.handleRemoteCall", "core/actor/actor_runtime_impl.go: Runtime.Received, Runtime.Call, Runtime.update", "lib/warpwaitgroup/warpwaitgroup.go: WrapWaitGroup"]}
{"id": "C108", "title": "Options of nodes and clients take effect", "statement": "A node and a gRPC client are built with the last values their options give and with the documented defaults otherwise, every option has an effect, Get returns the node built last and nil before one is built, and Init of a client knows every connection it opens.", "quantifier": "all lists of options with all values, all sequences of builds, all lists of addresses and outcomes of dialling", "why_tests_cant": "Tests build a node with one list of options each and do not look at what an option changed.", "anchors": ["core/node.go: NodeOption", "core/node/node_process_impl.go: BuildProcessWithOption, Get, process.Init", "core/node/system_impl.go: buildSystemWithOption", "lib/grpc/client_opt.go: ClientOption", "lib/grpc/client.go: BuildClientWithOption, Client.newconn, Client.Init"]}
{"id": "C109", "title": "Exit returns and ends the actor", "statement": "When Exit is called on an actor whose handlers end, then after a bounded amount of work Exit has returned, the loop of the actor has ended, everything that was in its mailbox or its reentry queue when it began to close has been handled, and no caller is left waiting, whoever calls Exit.", "quantifier": "every interleaving of any number of senders, topics, reentry messages, timers, the loop, checkClose and callers of Exit", "why_tests_cant": "That something happens in the end in every schedule cannot be seen in a finite number of runs; and the losing schedules need a sender to pause between its check of the closed flag and its push.", "anchors": ["core/actor/actor_runtime_impl.go: Runtime.Exit, Runtime.update, Runtime.Received", "core/node/system_impl.go: NormalSystem.Unregister", "core/actor/actor_context_impl.go: actorContext.Unregister"]}
{"id": "C110", "title": "A message is handled under the event that it was sent with", "statement": "When an actor handles a wrapper, it runs the handlers of an event with which that wrapper was sent to that actor.", "quantifier": "any number of wrappers, senders and actors, all interleavings of sends and handlers, all uses of the builder functions and of Swap", "why_tests_cant": "A test sees the order of steps that it happens to get; the wrong handler runs only if the second send comes before the first actor takes its message.", "anchors": ["core/node/system_impl.go: NormalSystem.Send, NormalSystem.Call", "core/actor/actor_runtime_impl.go: Runtime.update, Runtime.ReenterCall", "router/msg/msg.go: Swap"]}
{"id": "C111", "title": "A builder function changes the one message that it is meant for", "statement": "A new wrapper shares nothing with others. Each builder function changes exactly the named part of the request or response of its wrapper, and nothing that is seen through other messages. Swap exchanges request and response.", "quantifier": "all sequences of builder functions, sends, replies and Swap on any number of wrappers, headers and contexts", "why_tests_cant": "Sharing shows only through a second pointer; the combinations of wrappers and pointers are unbounded.", "anchors": ["router/msg/msg.go: NewBuilder, Swap, WithReqHeader, WithReqBody, WithResHeader, WithResBody, Build, ToBuilder", "router/msg/msg_custom_map.go: WithReqCustomFieldsMap, WithResCustomFieldsMap", "core/node/system_impl.go: handleRemoteCall"]}
{"id": "C112", "title": "Mailboxes are used without data races", "statement": "No two goroutines use a variable of a mailbox at the same time without synchronisation, one of them writing: the fields of the queue that are not atomic are used by the owner of the queue only, in the queue itself and in the actors that use it.", "quantifier": "every interleaving of any number of producers with the consumer, and of any number of senders, reentry messages, timers, the loop, checkClose and callers of Exit of an actor", "why_tests_cant": "The race detector finds a race only in schedules that happen while it runs; the absence of races is a statement about all schedules.", "anchors": ["lib/mpsc/mpsc.go: Queue.Push, Queue.Pop, Queue.Empty", "core/actor/actor_runtime_impl.go: Runtime.Received, Runtime.update"]}
{"id": "C113", "title": "Tick tasks are used without data races", "statement": "No two goroutines use the state or the ticker of a tick task at the same time without synchronisation, one of them writing, when tasks are started and stopped.", "quantifier": "every interleaving of any number of goroutines that start and stop a task with its own goroutines, all configurations", "why_tests_cant": "The race detector finds a race only in schedules that happen while it runs; the absence of races is a statement about all schedules.", "anchors": ["lib/timer/timer_tick.go: TickTimer.start, TickTimer.startTickTask", "lib/timer/timer.go: TimerInfo.stop"]}
{"id": "C114", "title": "The goroutine of a stopped tick task ends", "statement": "When a task has been stopped and nothing is left to do for any of its goroutines, it has no goroutine left: starting and stopping a task does not use up memory.", "quantifier": "every interleaving of any number of starts, stops, ticks, rounds and panics, for any number of restarts", "why_tests_cant": "A goroutine that waits forever does not fail anything; a test would have to look at all goroutines, after all schedules.", "anchors": ["lib/timer/timer_tick.go: TickTimer.startTickTask", "lib/timer/timer.go: TimerInfo.stop"]}
{"id": "C115", "title": "Call tells the caller whether the handler succeeded", "statement": "When Call to an actor of the same node returns nil, the hooks and the handler of the event have run on that actor and all of them returned nil; if one of them failed or panicked, or the actor has no handler for the event, Call returns an error.", "quantifier": "every interleaving of any number of calls to any number of actors, any hooks and handlers (which may succeed, fail or panic), any refusals, timeouts and ended contexts", "why_tests_cant": "Tests try a few handlers; that no result of Call depends on what handlers return is a statement about all handlers and all schedules.", "anchors": ["core/node/system_impl.go: NormalSystem.localCall", "core/actor/actor_runtime_impl.go: Runtime.update, Runtime.Received", "core/actor/actor_chain.go: DefaultChain.Execute"]}
{"id": "C116", "title": "A panic in user code is contained", "statement": "However the code of a user ends (hooks and handlers, timer callbacks, callbacks given to Then, requests to the gRPC server), by returning, by a panic or by ending its goroutine, the process goes on, the loop of the actor goes on, and whoever waits for that code gets an answer.", "quantifier": "every sequence of runs of user code on any number of actors, futures and requests, where the code may change the state of the user in any way and end in any way", "why_tests_cant": "Tests cannot try all code that users may write; a panic in a goroutine without recover ends the test process itself.", "anchors": ["core/actor/actor_runtime_impl.go: Runtime.update, Runtime.ReenterCall", "core/actor/actor_reenter_impl.go: Future.Then, Future.Complete", "core/node/system_acceptor.go: NewAcceptor, Routing"]}
{"id": "C117", "title": "The goroutine of a cancelled timer ends", "statement": "OnTimer starts one goroutine for a timer. When the timer has been cancelled and nothing is left for its goroutine to do, that goroutine ends; after the actor is shut down the goroutines of all its timers end.", "quantifier": "every number of timers with any due times and intervals, every interleaving of OnTimer, Stop, Reset, the goroutines of the timers, the passing of time, the loop and the shutdown", "why_tests_cant": "A goroutine that waits forever is not seen by a test unless it counts goroutines; no test can show that it will not end later.", "anchors": ["core/actor/actor_runtime_impl.go: Runtime.OnTimer, Runtime.CancelTimer, Runtime.Exit", "core/actor/actor_timer.go: TimerInfo.Stop, TimerInfo.Reset"]}
{"id": "C118", "title": "A registered actor is found until it is unregistered", "statement": "From the return of a successful Register until its Unregister begins, an actor is alive and in the map of its node, every node finds its record by id and by type, and a call by its id reaches it (or goes to its node), whatever is registered, unregistered and called at the same time.", "quantifier": "every number of goroutines and nodes, every interleaving of Register, Unregister, Call and Send step by step (each map access and each Redis command), every failure of a Redis command", "why_tests_cant": "The windows are a few Redis commands wide; tests would have to stop goroutines between them.", "anchors": ["core/node/system_impl.go: NormalSystem.Register, NormalSystem.Unregister, NormalSystem.Call, NormalSystem.Send, NormalSystem.findLocalOrWildcardActor", "core/addressbook/addressbook_impl.go: AddressBook.Register, AddressBook.Unregister, AddressBook.GetByID"]}
{"id": "C119", "title": "What was decoded can be encoded again, in no more bytes", "statement": "A message that a decoder of router.pb.go returns for any bytes can be encoded; the encoding is not longer than these bytes, and decoding it gives the same message. Decoding into a message that holds something already adds at most the length of the input to the size of its encoding.", "quantifier": "every byte string (of a length that a Go slice can have), every receiver, all four message types", "why_tests_cant": "Inputs are arbitrary bytes: repeated fields, headers in pieces, numbers in long forms and unknown fields in any order and depth.", "anchors": ["router/router.pb.go: Header.Unmarshal, Message.Unmarshal, RouteReq.Unmarshal, RouteRes.Unmarshal, Header.Marshal, Message.Marshal, RouteReq.Marshal, RouteRes.Marshal, Header.Size, Message.Size"]}
{"id": "C120", "title": "Decoders accept the messages of the format and nothing else", "statement": "A decoder of router.pb.go accepts a byte string if and only if it is a message of the protocol buffers format whose known fields have the right types, and returns what its fields say, applied from left to right; decoding two byte strings one after the other into one message is decoding them together.", "quantifier": "every byte string (of a length that a Go slice can have), every receiver, all four message types, unknown fields and groups of any depth", "why_tests_cant": "The set of accepted byte strings is infinite, and malformed inputs that are accepted are rare: a test would have to guess them.", "anchors": ["router/router.pb.go: Header.Unmarshal, Message.Unmarshal, RouteReq.Unmarshal, RouteRes.Unmarshal, skipRouter"]}
{"id": "C121", "title": "An unregistered actor is gone", "statement": "From the return of a successful Unregister until the next Register of the id begins, no actor with the id is alive, no record of it is left in Redis or in the IDMap of a node, no call on any node finds it (a call by its id reports that it is unknown), and the next Register of the id is not refused as a repetition.", "quantifier": "every number of goroutines and nodes, every interleaving of Register, Unregister, Call and Send step by step (each map access and each Redis command), every failure of a Redis command", "why_tests_cant": "Whether something is left depends on the moment of a connection failure and on calls that run between two Redis commands; tests see the case without either.", "anchors": ["core/node/system_impl.go: NormalSystem.Register, NormalSystem.Unregister, NormalSystem.Call, NormalSystem.Send", "core/addressbook/addressbook_impl.go: AddressBook.Register, AddressBook.Unregister, AddressBook.GetByID, AddressBook.GetWildcardActor"]}
{"id": "C122", "title": "Timers of an actor are used without data races", "statement": "Whatever goroutines do with the timers of an actor (make, stop, cancel and reset them), no two of them use a plain field of a timer at the same time, one of them writing.", "quantifier": "every number of timers and calling goroutines, every interleaving of their steps, every due time and interval", "why_tests_cant": "The race detector sees only the schedules that happen; the race between a new timer's goroutine and its cancellation needs a cancellation within microseconds.", "anchors": ["core/actor/actor_timer.go: TimerInfo.Stop, TimerInfo.Reset", "core/actor/actor_runtime_impl.go: Runtime.OnTimer, Runtime.CancelTimer"]}
{"id": "C123", "title": "A message wrapper is not used by two goroutines at once", "statement": "During a call to an actor of the same node, and after it has returned, the request, the response and the error of its wrapper are never used by two goroutines at the same time, one of them writing.", "quantifier": "every number of calls and actors, every handler and event, every interleaving, timeouts and ends of contexts at any moment, callers that use the wrapper as soon as the call has returned", "why_tests_cant": "It takes a handler that runs while its call times out or its context ends; tests answer in time, and the race detector reports only what happened.", "anchors": ["core/node/system_impl.go: NormalSystem.localCall", "core/actor/actor_runtime_impl.go: Runtime.update", "router/msg/msg.go: Wrapper"]}
{"id": "C124", "title": "The spans of calls form the tree of the calls", "statement": "On a node with a tracer the span of every call has as its parent the span of the call for which the code runs that makes it, and no parent if it runs for none.", "quantifier": "every number of wrappers and calls, nested and repeated in any way, wrappers made in any way from each other", "why_tests_cant": "The parent depends on everything that was done before with the wrapper and with those it was made from; a test tries a few such histories.", "anchors": ["core/node/system_impl.go: NormalSystem.Call, NormalSystem.Send", "lib/span/span_call.go: SystemCallTracer.Begin", "router/msg/msg.go: NewBuilder, Swap"]}
{"id": "C125", "title": "A reentrant call is over when its deadline comes", "statement": "The future of ReenterCall is completed when the deadline of the context has come, or 30 seconds after the call if the context has no deadline, and never for a deadline that has not come.", "quantifier": "every number of reentrant calls, every deadline, every interleaving with the actor loop and with the end of the calls, every passing of time", "why_tests_cant": "It is about calls that do not return for any time, and about all moments at which a deadline can come between the steps of four goroutines.", "anchors": ["core/actor/actor_runtime_impl.go: Runtime.ReenterCall"]}
{"id": "C126", "title": "Options of a client call are used, and other values are refused", "statement": "A call of the gRPC client with options is made with exactly these options, in their order; if one of the values is no call option the call returns an error and nothing is sent.", "quantifier": "all lists of values", "why_tests_cant": "The input space is unbounded; a test only samples it.", "anchors": ["lib/grpc/client.go: Client.Call, Client.CallWait"]}
{"id": "C127", "title": "An id that was unregistered can be registered again", "statement": "If no actor with an id exists on a node and no Register or Unregister of this id is in progress, then a Register of the id on the node succeeds, if the type has no limit and Redis answers.", "quantifier": "all histories of Register and Unregister calls and cleanups on all nodes, all interleavings of those on other ids", "why_tests_cant": "Whether the id is free depends on all that was done with it before, on this node and on others, in any order.", "anchors": ["core/node/system_impl.go: NormalSystem.Register, NormalSystem.Unregister", "core/addressbook/addressbook_impl.go: AddressBook.Register, AddressBook.Unregister"]}
{"id": "C128", "title": "A subscription ends when its channel is closed or its actor is gone", "statement": "After Close of a subscription has returned, or Exit of the actor that subscribed, no message that is published later is given to it, and its goroutines end.", "quantifier": "every number of subscribers, channels and messages, every interleaving of their loops and handlers with publications, closings and exits", "why_tests_cant": "It is about everything that is published after the end, for any time, and about every place at which the read loop and the handler can be when the end comes.", "anchors": ["lib/pubsub/ps_channel.go: Channel.Close, loop, addHandlers", "core/actor/actor_runtime_impl.go: Runtime.Exit, Sub"]}
{"id": "C129", "title": "Futures and unbounded buffers are used without data races", "statement": "No two goroutines use the result or the callbacks of a future, or the backlog of an unbounded buffer, at the same time, one of them writing.", "quantifier": "every number of futures, callbacks, goroutines and messages, every interleaving of Then, Complete, IsCompleted, Put, Load, receptions and Len", "why_tests_cant": "The race detector reports only the races of the interleavings that a test run happens to take; the claim is about all of them, and chained futures make any number of goroutines.", "anchors": ["core/actor/actor_reenter_impl.go: Future.Then, Future.Complete", "lib/unbounded/unbounded.go: Put, Load, Len"]}
{"id": "C130", "title": "The messages of the mock service are encoded and decoded faithfully", "statement": "Every MockRequest and MockResponse is encoded into exactly Size bytes of the protocol buffers format, decoding gives it back, and on arbitrary bytes the decoder returns an error or the last string with field number 1, ignoring other fields.", "quantifier": "every message, every buffer, every byte string that a Go slice can hold", "why_tests_cant": "The tests of the repository send a few short strings; the claim is about every string and every malformed input, including lengths that overflow and nested unknown groups.", "anchors": ["lib/grpc/mock/mock.pb.go: MockRequest.Marshal, MarshalTo, Size, Unmarshal, skipMock"]}
{"id": "C131", "title": "The goroutines that a call starts end", "statement": "Every goroutine that System.Call starts to wait for the answer, the timeout or the group of calls ends, also when actors end in between.", "quantifier": "every number of actors, calls and groups, every tree of calls, every interleaving, every moment at which an actor ends", "why_tests_cant": "A leaked goroutine makes no test fail, and it is leaked only if an actor ends between two steps of the delivery of a message; the claim is about every interleaving of any number of calls.", "anchors": ["core/node/system_impl.go: NormalSystem.localCall", "core/actor/actor_runtime_impl.go: Runtime.Received"]}
{"id": "C132", "title": "Messages are encoded into the buffers of callers", "statement": "MarshalTo writes the encoding at the beginning of the buffer and MarshalToSizedBuffer at its end, neither touching the rest nor writing outside; XXX_Marshal returns the encoding appended to the slice it is given.", "quantifier": "every message, every slice, every capacity and every content of the memory", "why_tests_cant": "The library always passes a slice of exactly the right capacity, so tests see only this one; the claim is about every slice that the signature allows.", "anchors": ["router/router.pb.go: MarshalTo, MarshalToSizedBuffer, XXX_Marshal", "lib/grpc/mock/mock.pb.go: XXX_Marshal"]}
{"id": "C133", "title": "What was taken out or replaced is not kept in memory", "statement": "A value that Pop has returned is not reachable from the queue any more, and the queue keeps one node more than values wait; a value that Load took out of the backlog of an unbounded buffer is not in its array any more; a value of an actor's context that was replaced is not kept.", "quantifier": "every interleaving of any number of producers, any number of values, any capacity chosen by append, any number of replacements", "why_tests_cant": "Nothing observable differs until the memory is exhausted; tests would need to look at what the collector may free, after every interleaving.", "anchors": ["lib/mpsc/mpsc.go: Push, Pop", "lib/unbounded/unbounded.go: Put, Load", "core/actor/actor_context_impl.go: WithValue"]}
{"id": "C134", "title": "The 32-bit count of a mailbox queue does not matter", "statement": "However many values wait in a queue, its count of type int32 does what a count of any size would do: the consumer is woken up as long as values wait, and Count is their number.", "quantifier": "every interleaving of any number of producers with the consumer, any number of values waiting", "why_tests_cant": "It takes more than two thousand million values in one queue to reach the end of an int32.", "anchors": ["lib/mpsc/mpsc.go: Queue.count, setCount, Count"]}
{"id": "C135", "title": "Errors and log records show where they come from", "statement": "The place in the detail of an error code is the file and line where the code was made; the caller of a log record is the function that made the record, and the stack trace of a warning or an error contains that function and all the functions that called it.", "quantifier": "all call stacks of any depth, all functions and methods that make codes or records, all levels, all numbers of frames to skip", "why_tests_cant": "The depth of the stack is counted by hand (runtime.Caller(3), Callers(2), 64 entries); a test sees the stacks that it builds, not every way and depth of calling.", "anchors": ["lib/errcode/errcode.go:12-25", "lib/errcode/errcode.go:108-111", "lib/log/helper.go:28-49", "lib/log/helper.go:51-115", "lib/log/helper.go:132-170", "lib/log/options.go:268"]}
{"id": "C136", "title": "Any bytes sent to a node are answered", "statement": "Whatever bytes reach the acceptor of a node, the node keeps running and the sender gets a response or an error. A call is made exactly if the bytes are a request with a header, once, with the target, type, event and body of the request. If handling a request panics, the error has the text of the panic and the whole stack trace.", "quantifier": "all byte strings, all behaviours of Call (returns, errors, panics, and handlers that still write to the response afterwards), all stack traces of any length", "why_tests_cant": "A test sends some bytes and makes some handlers fail; that every byte string is answered, and which writes of a handler that is still running end the process, needs an argument over all of them.", "anchors": ["core/node/system_acceptor.go:33-56", "core/node/system_acceptor.go:94-114", "router/router.pb.go:369-385", "router/router.pb.go:568-576"]}
{"id": "C137", "title": "Records go to the logger that was set", "statement": "The records of the functions of the log package go to the logger given to SetSLog or ExportSLog last, with its tag, and to that of the start before; they never panic. The records of a logger object go to the logger it was made with, whatever is set for the process.", "quantifier": "all sequences of NewServerLogger, SetSLog, ExportSLog and records, with any number of objects, loggers and tags", "why_tests_cant": "ExportSLog changes an object that others may hold; a test sees the sequences it makes, not every interleaving of setting, exporting and logging.", "anchors": ["lib/log/mlog.go:7-28", "lib/log/options.go:217-226", "lib/log/options.go:275-277", "lib/log/options.go:289-291", "lib/log/helper.go:131-170"]}
{"id": "C138", "title": "Cleaning up a stale record keeps the loads right", "statement": "When Call or Send finds a stale record of its node and removes it, the loads recorded for the nodes are the sums of the weights of the actors that remain registered; and no call panics in doing so.", "quantifier": "all histories of registrations that follow the rules, all running actors, targets (ids and symbols), types asked for, samples and orders", "why_tests_cant": "The weight is that of the type the caller names, not of the record; a test that names the right type sees no difference.", "anchors": ["core/node/system_impl.go:222-275", "core/node/system_impl.go:388-437", "core/addressbook/addressbook_impl.go:98-132"]}
{"id": "C139", "title": "Closing a connection is answered and leaves nothing behind", "statement": "Closing a connection of the gRPC client returns the result of the close, or a timeout after three seconds and not before; it returns once, and the goroutine it starts ends once the connection is closed.", "quantifier": "all numbers of concurrent calls, all interleavings, all durations and results of conn.Close", "why_tests_cant": "The goroutine that is left behind shows only when conn.Close takes longer than three seconds, and then only as one more goroutine.", "anchors": ["lib/grpc/client.go:75-95"]}
