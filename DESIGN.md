# Formal model of pojol/braid: design

This file was written and committed before the proofs. Section 6 ("Findings") and the
"Result" remarks are updated as the work proceeds; the plan for a property is not rewritten
to fit the proof.

## 1. Trusted base

* **Lean's kernel** (Lean 4.33.0). Everything under `lean/Verif` is checked by it.
* **Axioms.** Only Lean's three standard ones may appear: `propext`, `Classical.choice`,
  `Quot.sound`. There are no axioms of our own, no `sorry`, no `native_decide`, no `bv_decide`.
  Section 5 lists, per theorem, what `#print axioms` reports.
* **The reading of the Go code.** The model is written by hand from the source text; that the
  model says what the code says is not machine-checked. Every model definition cites the file
  and lines it models and says where it simplifies, so it can be compared side by side.
* **The semantics given to things outside the repository**:
  * Go memory model: the operations the code performs atomically (sync/atomic, channel
    operations, critical sections under a mutex) are atomic steps of a sequentially consistent
    interleaving semantics. Data races on plain variables are not given a weak-memory semantics;
    where the code has one it is noted.
  * `int` is 64 bit. Where a property does not depend on overflow, `Int`/`Nat` is used and the
    definition says so. The wire format and the cron parser use fixed-width or explicitly
    wrapping arithmetic where it matters.
  * Redis: each command is atomic; a pipeline is a sequence of commands, not a transaction.
    Hashes, sets, strings with expiry and streams with consumer groups behave as in the Redis
    documentation. Pipelines may fail after any prefix of their commands.
  * JSON / msgpack (encoding/json, vmihailenco/msgpack): parameters with a stated round-trip
    law, except that numbers in JSON are modelled as float64 rounding of integers (C49).
  * HMAC and base64 in the JWT library: parameters; unforgeability is not claimed, only
    "accepted iff the signature check passes".
  * gRPC transport: an RPC either runs the remote handler and returns its reply, or returns an
    error.
  * Time: a clock that only moves forward; timeouts are steps that may happen at any moment
    allowed by the clock (or at any moment at all, which includes all timings).
  * Jaeger, zap, MongoDB drivers: not modelled.

## 2. What is modelled and what is not

| Lean directory | Go code | Modelled |
|---|---|---|
| `Verif/Mpsc` | `lib/mpsc/mpsc.go` | `New`, `Push`, `Pop`, `Empty`, `Count`, `setCount`, the channel `C`; one step per atomic operation |
| `Verif/Unbounded` | `lib/unbounded/unbounded.go` | `Put`, `Load`, `Get` (receive), `Len` |
| `Verif/Future` | `core/actor/actor_reenter_impl.go` | `NewFuture`, `Then`, `Complete`, `IsCompleted`, callback goroutines |
| `Verif/Chain` | `core/actor/actor_chain.go` | `DefaultChain.Execute` |
| `Verif/Actor` | `core/actor/actor_runtime_impl.go`, `actor_timer.go`, `lib/warpwaitgroup` | `Init`, `Received`, `update`, `checkClose`, `Exit`, `Call` (header stamping), `ReenterCall`, `OnTimer`, `CancelTimer`, `TimerInfo` |
| `Verif/CallTree` | `core/node/system_impl.go: localCall` | root/nested calls over wait groups; circles of waiting actors |
| `Verif/Share` | `router/msg/msg.go`, `core/node/system_impl.go: Send, Call`, `core/actor/actor_runtime_impl.go: update` | heap of headers, messages and wrappers; what they share and which event is handled |
| `Verif/NodeOpts` | `core/node.go`, `core/node/node_process_impl.go: BuildProcessWithOption, Get, Init`, `lib/grpc/client_opt.go`, `lib/grpc/client.go: BuildClientWithOption, Init` | options of nodes and clients |
| `Verif/AddressBook` | `core/addressbook/addressbook_impl.go` | all operations, over a model of the Redis keys they use |
| `Verif/Book` | `core/addressbook/addressbook_impl.go` | `Register`, `Unregister`, `GetByID`, `GetByType`, `Clear` by any number of goroutines, one Redis command or map access at a time |
| `Verif/System` | `core/node/system_impl.go`, `system_acceptor.go` | `Register`, `Unregister`, `Call`, `Send`, `findLocalOrWildcardActor`, `handleRemoteCall/Send`, `Routing`, `Pub` |
| `Verif/PubSub` | `lib/pubsub/*` | topic, channel, read loop, handler loop over Redis streams |
| `Verif/DisMutex` | `lib/dismutex/dismutex.go` | `Lock`, `Unlock` with expiry, attempts, pauses, lost commands and replies |
| `Verif/Wire` | `router/router.pb.go` | `Marshal*`, `Size`, `Unmarshal`, `skipRouter` for all four messages, byte by byte |
| `Verif/Msg` | `router/msg/*` | builder, custom fields, typed getters |
| `Verif/Grpc` | `lib/grpc/client.go` | `Call` (slots), `CallWait`, `getConn`, connection map; call options; `closeconn` |
| `Verif/Register` | `core/node/system_impl.go: Register, Unregister` | the steps of registration, any number of goroutines and nodes |
| `Verif/Reenter`, `Verif/Timer` | `core/actor` | reentrant calls, also with a clock; timers with a clock |
| `Verif/Trace` | `core/node/system_impl.go: Call, Send`, `lib/span/span_call.go`, `router/msg/msg.go` | the spans in the contexts of wrappers, from call to call |
| `Verif/Cron` | `lib/timer/timer_express.go` | `parseExpress`, `subString`, `IsMatch` |
| `Verif/Errcode`, `Verif/Versions`, `Verif/Token` | `lib/errcode`, `core/entity.go`, `lib/token` | all functions (tokens over abstract libraries) |
| `Verif/Reporter` | `lib/tracer/slow_reporter.go` | `Report`, `Close`, the worker |
| `Verif/Builder` | `core/actor/actor_build_impl.go`, `tests/mock/mock_loader.go` | builders and their options |
| `Verif/TickTask` | `lib/timer/timer.go`, `timer_tick.go` | tick tasks with concurrent starts, stops and panics; a round with its hooks; `TimerService` |
| `Verif/WaitGroup` | `lib/warpwaitgroup` | all operations, on a model of `sync.WaitGroup` with its checks |
| `Verif/Shutdown` | `core/node/node_process_impl.go: WaitClose`, `system_impl.go: Exit` | the shutdown with concurrent registrations; its timing |
| `Verif/Events` | `core/actor/actor_runtime_impl.go: OnEvent, Sub`, message dispatch | handlers by event name, the queue, subscriptions |
| `Verif/TopicLife` | `lib/pubsub/ps_topic.go`, `ps_channel.go: newChannel` | life of a topic: creating, publishing, subscribing, closing and expiring, one step per Redis command with failures |
| `Verif/TopicOpts` | `lib/pubsub/ps_mgr.go`, `ps_topic.go`, `system_impl.go: Sub` | time to live of topics |
| `Verif/Context` | `core/actor/actor_context_impl.go` | identity and values of an actor's context |
| `Verif/Redis` | `3rd/redis` | batch results, options and the shared default |
| `Verif/RedisOps` | `3rd/redis/client.go` | every wrapper of a command; what go-redis sends for it |
| `Verif/Files` | `utils/file/file.go` | saving, overwriting, names and extensions |
| `Verif/Mgo` | `3rd/mgo/mgr.go` | connections of one or more builds |
| `Verif/Names` | `lib/log/options.go: funcShortName`, `lib/errcode/errcode.go: shortFile` | text before and after separators |
| `Verif/LogLib` | `lib/log/flow.go`, `log.go` | fields of flows, levels |
| `Verif/Custom` | `router/msg/msg_utils.go`, `map_custom_object.go` | acceptance and encoding |
| `Verif/Span` | `lib/span/span_grpc.go`, `span_call.go` | metadata in a heap, spans; one key per tracer, no baggage |
| `Verif/Tcc` | `tests/mock/mock_actor_a.go`, `_b.go`, `_c.go` | participants; the coordinator with calls that are lost or late |
| `Verif/Loader` | `tests/mock/mock_loader.go`, `actor_dynamic_picker.go`, `actor_dynamic_register.go` | static actors of a node; options of picked actors |
| `Verif/Logger` | `lib/log/options.go`, `rotation.go` | options, encoder configurations in a heap, destinations of records, callers |
| `Verif/Server` | `lib/grpc/server.go`, `server_opt.go`, `system_acceptor.go: NewAcceptor` | options, interceptors; `Init`, `Run`, `Close` with calls, step by step |
| `Verif/Tracing` | `lib/tracer/jaegertracing.go`, `opts.go`, `3rd/mgo/collection.go` | options, factories of spans, traced operations |
| `Verif/Reuse` | `core/node/system_impl.go` (localCall), `warpwaitgroup.go` | one wrapper used for many calls, its `Done` channel and wait group |
| `Verif/Maps` | every map and slice that goroutines share (`core/node`, `core/actor`, `core/addressbook`, `core/entity.go`, `lib/pubsub`, `lib/timer`, `3rd/mgo/mgr.go`) | locks and accesses along the paths of each function |
| `Verif/Race` | `lib/mpsc/mpsc.go`, `core/actor/actor_runtime_impl.go`, `lib/timer/timer.go`, `timer_tick.go`, `core/actor/actor_timer.go`, `core/node/system_impl.go: localCall` | which plain variables each step of the models `Mpsc`, `Actor`, `TickTask`, `Timer` and `Fail` uses, and whose step it is |
| `Verif/Fail` | `core/node/system_impl.go` (localCall), `core/actor/actor_runtime_impl.go` (Received, update) | calls within a node and what becomes of the outcome of the handler, over the chains of `Verif/Chain` |
| `Verif/Panic` | `core/actor/actor_runtime_impl.go` (update, ReenterCall), `actor_reenter_impl.go`, `core/node/system_acceptor.go` | panic, recover, deferred functions and `Goexit`, and all places where code of users runs |
| `Verif/Live` | `core/node/system_impl.go` (Register, Unregister, Call, Send), `core/addressbook/addressbook_impl.go` | calls that look for their target while actors are registered and unregistered, over `Verif/Register` |
| `Verif/Payload` | `core/node/system_impl.go` (Call, handleRemoteCall), `system_acceptor.go` (Routing), `router/msg/msg.go` | the wrapper of a call on its way through nodes, over the encoder and decoder of `Verif/Wire` and the routing of `Verif/System` |
| `Verif/Accept` | `core/node/system_acceptor.go` (Routing, recoverHandler, stack), `router/router.pb.go` | any bytes from decoding to the reply, panics, responses that change while they are encoded |
| `Verif/Where` | `lib/errcode/errcode.go`, `lib/log/helper.go` | call stacks, the places that errors and records show |
| `Verif/SLog` | `lib/log/mlog.go`, `options.go` (SetSLog, NewServerLogger), `helper.go` | the logger of the process and logger objects |

Not modelled: the text of log records, rotation of log files, keep-alive of gRPC, process signals (`node_process_impl.go` beyond its call order), the
MongoDB wrapper beyond connection bookkeeping, mobile/CLI templates, tests.

## 3. Method

* A concurrent component is a labelled transition system: an executable function
  `step : State -> Action -> Option State` (`none` = not enabled) with one action per atomic
  operation of the Go code, and program counters for the goroutines. Any number of goroutines
  (indexed by `Nat`). `Reachable` is closure under `step`; properties are proved by an inductive
  invariant. There is no bound on goroutines, steps or data.
* Observable events (call returned, handler started, ...) are recorded in a history kept beside
  the state; property statements speak about histories, not about the internal fields.
* Sequential components are total functions on data; properties are proved by induction.
* Specifications (prefix, sub-sequence, least element, sum of weights, abstract map) are defined
  in `Spec` files that do not mention the model's helpers.
* Where the code violates a property there are two theorems: a refutation (`..._refuted`: an
  explicit reachable execution of the model that violates the statement) and a `..._partial`
  theorem: the statement under the extra condition that makes it true.
* Beside each theorem there is an `example` with a concrete instance of its hypotheses.

## 4. Plan per property

**C01, C02, C03, C04 (mpsc queue).** Heap of nodes (address -> next, val), `head`, `tail`, `count`,
channel buffer, a program counter per producer (allocated / swapped / linked / counted) and for
the consumer (waiting / popping / counted). Ghost: the swap order. Invariant: the un-popped part
of the swap order is the chain of nodes from `tail`, where the link out of a node is missing iff
the producer of the following node is between its swap and its store. C01: popped values are a
prefix of the swap order; the swap lies between invocation and return of Push, which gives
program order and real-time order. C02: with all program counters idle, chain = remaining values,
`count` = its length. C03: `count > 0` implies token in `C`, or a producer that still has to
count/send, or an active consumer; at rest this is the statement; plus a drain theorem.
C04: expected to fail (a producer stopped between swap and link hides later completed pushes):
refutation, and partial: nil is only returned if everything completed is popped or some Push that
swapped earlier is still in progress.

**C05, C06 (unbounded).** State: channel buffer, backlog, lock owner, per-goroutine program
counter. Invariant: received ++ channel ++ backlog (++ value in hand) = values put.
C06: backlog non-empty and channel empty implies that some goroutine is inside Put or Load or has to Load.

**C07, C08 (future).** Heap of futures; Then and Complete are atomic (mutex); callback goroutines
are separate steps. Invariant counts: each registered callback is in exactly one of
registered / spawned / run. C08: expected to fail for Then after completion: refutation; partial:
chains built before completion run to the end in order.

**C09 (chain).** `Execute` over lists of steps with outcomes; specification: longest error-free prefix.

**C10-C14 (actor loop).** LTS with the mailbox (an abstract FIFO with token, justified by C01-C03),
senders with separate check / add / push steps, loop program counter, `checkClose` goroutine,
any number of Exit callers, timer ticks. C13 and C14 are expected to fail (Exit does not wait for
the running handler; the check of `closed` and the push are not atomic): refutations; partial:
what has been pushed before `checkClose` saw the queue empty has been started (C13), and accepted
messages are handled if no Exit was called, nothing is accepted after `closed` was set (C14).

**C15, C16 (reentrant calls).** LTS with call result, context cancellation, reenter queue and
futures. C15 expected to fail (callbacks are started with `go`): refutation; partial: the
reenter action itself runs on the actor loop. C16: at most once always; exactly once if the loop is alive.

**C17, C18, C19 (timers).** Timer goroutine as an LTS with a clock. C17 expected to fail for
interval 0 (NewTicker panics) and due 0 (first tick after interval): refutation; partial for
due > 0, interval > 0. C18 expected to fail (queued ticks): refutation; partial: at most the
ticks already sent. C19 expected to fail (Reset with the same interval after Stop): refutation; partial.

**C20, C21 (call tree).** Call trees as an inductive type; states are multisets of queued and
running handlers; the wait group counter. Invariant: counter = queued + running. C20 fails when
the five second limit fires (Call returns nil): refutation; partial without the limit.
C21 fails for nested calls: refutation; partial for root calls.

**C22 (origin stamping).** Fold of `Call` over a list of actors.

**C23, C25, C26, C28 (routing).** `Call`/`Send` as decision functions over node state and address
book answers. C26 expected to fail (comparison by ip and port only; nodes without port share
them): refutation; partial for distinct addresses. C28 expected to fail (symbols are not handled).

**C24 (location transparency).** Cluster = list of node states + shared address book; the remote
handler re-enters Call. Consistency of book and maps is an invariant of sequential
Register/Unregister histories, so the hypothesis is shown to be reachable.

**C27 (remote error).** Expected to fail (Routing drops the error): refutation; partial: transport errors are reported.

**C29, C30, C31 (registration limits).** Sequential histories: proved by induction over operation
lists on clusters. Concurrent histories: Register split into its steps; refutations by explicit schedules.
C31 fails already sequentially if the limit is 0. How far the limits can be exceeded: if at most K `Register` calls of a type
overlap, at most limit + K - 1 records, by counting the calls between their check and their last command; reached for every
limit and K by a family of schedules. Orphans: rounds of two overlapping calls and an `Unregister`.

**C32-C38 (address book).** Redis hashes and sets as finite maps; operations as lists of
commands. C32, C33, C34: refinement to an abstract directory (set of (id, type, node, weight)) by
induction over histories of nodes using distinct ids and consistent weights; the local map of a cleared node is never
written again, which gives its lookups exactly. C35: fold over the sample is the least element.
C36 expected to fail (two iterations of a map): refutation, and which nodes may be returned; partial for equal orders.
C37 expected to fail (pipeline prefix): refutation; partial: success implies all records, any fault is reported. Trying again:
by induction over the failed calls, each of which leaves a prefix of the same commands.
C38 expected to fail (check is local): refutation; partial per node.

**C39, C40 (pub/sub).** Redis stream with groups (last delivered id, pending), subscriber loops,
unbounded buffer (C05), handler push + ack + delete. C40 expected to fail for two channels (XDel);
refutation; partial: one channel per topic; for several channels, a message a channel does not get was delivered on another.

**C41 (Pub).** Expected to fail (nil topic): refutation; partial for topics created on this node.

**C105, C106 (Redis wrappers).** One function from operations to the method they call, one to the tags of their span; go-redis as a
table from methods to commands. Specification: the commands as in the manual of Redis, and what their expirations mean.
C105 expected to fail for `ConnHGet`, `CAD`, `XReadGroup` without streams and fractions of seconds, C106 for all.

**C107 (circles).** On the model of call trees. Rest: no step but new work, timeouts, ended contexts and failed remote calls is possible.
Key steps: at rest a pending call waits for a message, a message for the call its actor is in; a finite relation without end has
a circle; what waits at rest is frozen under any further steps; a measure for the number of steps. Expected to fail: the check for
self-calls compares the originator only.

**C108 (options of nodes and clients).** Options as a data type, `apply` folded over any list. Induction on the list from its end; an
option has an effect if it makes a difference somewhere. Expected to fail for options nobody reads.

**C109 (Exit returns).** On the model of C10-C14. The looks of `checkClose` and of the loop at the shutdown signal are polls; a measure
that every other step lowers; rest: nothing but polling can be reached by polling. At rest both queues are empty, so `checkClose`
would go on. Expected to fail for late deliveries (C14) and for `Exit` called by a handler of the actor itself.

**C112, C113 (data races).** A race is a pair of neighbouring steps of two goroutines in the existing models that use the same plain
variable, one of them writing. `qacc`, `aacc` and `tacc` say which plain variables each step uses; that every change is recorded is
proved (`C112_writes`, `C113_writes`). The invariants give who can be where: the node that a producer writes is not yet reachable for
the consumer, the lock excludes other starters, a disciplined caller meets only parked goroutines. Expected to fail: `checkClose` calls
`Empty`, and `stop` does not lock.

**C114 (goroutines of stopped tasks).** No step takes a goroutine away; a goroutine at a stopped empty ticker cannot move. The number
left at rest follows from the count in the invariant of C61. Expected to fail for every number of restarts.

**C115 (the result of Call).** Calls with wrappers of their own, mailboxes, the waiter and the loop; the chain is the one of C09. An
invariant ties the wrapper to what the chain makes of the one that was sent. `C115_blind`: a simulation between two systems with
different handlers that keeps everything callers see. Expected to fail: the loop only logs the error of a chain.

**C116 (panics).** A small semantics of Go code that returns, panics or ends its goroutine, with deferred functions. Each place where
code of users runs is a term of it, as in the source; what a run shows is then computed for every end of the code. Expected to
fail: the goroutines of `Then` and `Complete` do not recover.

**C117 (goroutines of timers).** Model of C17. The timers with a goroutine are counted by an invariant; a goroutine at the stopped
ticker of a cancelled timer cannot move until a reset or the shutdown. After the shutdown: a way to the end is built for every
place where a goroutine may be. Expected to fail: `Stop` stops the ticker only.

**C118 (registered actors are found).** The model of C29-C31 with calls as further goroutines, each access to shared state one step.
Invariant: whoever has found the actor missing in the map still finds it missing, as long as nothing overlaps with its
registration; so nobody removes the record while the actor is in the map. Expected to fail: `Register` publishes the record before
the actor is in the map.

**C121 (unregistered actors are gone).** The model of C118. Invariant: as long as any record of the actor is left, so is the one by its
id, or somebody is removing the rest; it needs that Redis does not fail in `Unregister`. So when `Unregister` finds no record or has
removed it, nothing is left, and this stays so until a `Register` begins. That the actor is stopped does not depend on Redis.
Expected to fail: `Unregister` logs errors of the address book and returns nil.

**C122, C123 (data races on timers and wrappers).** The models of C17 and C115 with the plain variables each step uses. C122: a goroutine
uses `interval` and writes `ticker` only before its first tick; callers are inside `Stop` or `Reset`. C123: while a message is
handled its caller waits, unless the waiter gave up or the context ended. Expected to fail: neither has a lock.

**C110, C111 (what wrappers share).** Headers, messages and wrappers as objects of a heap with pointers between them; builder functions,
`Swap`, the header writes of `Send`/`Call`, mailboxes of pointers. C110: the event in a request is the last one written (a fold over
the history), where the identity of a request follows `Swap`. C111: what can be read through a message before and after each action.
Expected to fail: the event is read when the message is handled, and headers can be given to two messages.

**C104 (creating and closing a topic).** One step per Redis command, any number of goroutines. Every entry in the stream was added
in the history; the entry of a `newTopic` is there only between two of its commands. A `Close` that has passed its checks knows
that everything in the stream came later. Expected to fail in both parts, because nothing is atomic: refutations.

**C102 (overlapping calls of the address book).** One step per Redis command. For every id the invariant says which of its four
records and which summands of the loads exist (`Foot`), depending on where the goroutine that works on the id is. Expected to
fail if calls for one id overlap, since the pipelines are not transactions and the `IDMap` is written last.

**C42, C43, C101 (distributed lock).** Store with expiry times, clock, clients. Values unique per Lock call (16 random bytes: assumption).
Attempts with their times and the pauses between them; C101 expected to fail for lost replies.

**C44-C47 (wire).** Encoders and decoders on byte lists transcribed branch by branch, with
64 bit arithmetic and an explicit panic outcome for out-of-range indexing. C44 by inverting
each field writer; C45 by computing lengths; C46: the panic outcome is unreachable, termination by
the decreasing remainder; C47: decoding of concatenated fields.

**C119, C120 (what decoders accept).** Model of C44-C47. A grammar of byte strings (numbers in any form, fields, groups in groups)
that does not mention the decoders, and a relation between a message, fields and the message after them. `varint`, `bytesField`,
`skipRouter` and the loops are shown equivalent to the grammar, in both directions; the grammar is unambiguous, because a tag ends at
its first byte below 128. C119: each field adds at most its own bytes to the shortest encoding (a length is never shorter than its
shortest form, and the length of a sum takes at most as many bytes as both lengths together), then C44. The strict grammar of the
format is a part of the other one; expected to fail to be equal, because the field number is cut to 32 bits and the numbers at both
ends of a group are not compared.

**C48, C49, C50 (messages).** Maps as association lists; serializer as parameter with round trip
law. C49 expected to fail (float64 beyond 2^53; int8/uint8 missing): refutation; partial for the
handled types up to 2^53. C50 expected to fail (Timestamp not copied): refutation; partial for the other fields.

**C51, C52, C53, C103 (gRPC client).** LTS of callers with slots. C103: what each call in progress has sent and opened, in terms of the history. C52 expected to fail (Call does not
dial): refutation; partial after a CallWait. C53 expected to fail concurrently; partial sequentially, and a bound
by the number of overlapping calls: connections and calls that may still open one are counted together.

**C54, C55 (cron).** parseExpress on character lists with fuel-free loops where the step is
positive. C55 expected to fail (step 0 loops forever): shown as an infinite execution of the loop;
partial for positive steps.

**C56 (errcode), C57 (versions), C58 (token), C59 (span reporter), C60 (builder options).** As data or
small LTS. C56: non-nil errors with empty text count as OK, refutation for the last clause.
C57 expected to fail for unsorted registration; partial for ascending registration, with the exact condition.
C60 expected to fail (shared map); partial.

**C61-C64 (tick tasks of lib/timer).** LTS: task fields, any number of tickers with a one-place channel, any number
of loop goroutines, callers of start and stop, handler outcomes. C61 expected to fail (a panic starts a second
loop and keeps the first; stop and start during a round): refutations; partial: started once, no panics. C62
expected to fail (stop during the delay crashes or is ineffective; older tickers are not stopped): refutations; partial: one
loop whose ticker exists, then at most two more calls. Both also for disciplined callers (`DiscSpec.lean`: one call at a
time, stop only once the ticker is made, restart only at rest), by an invariant over five phases of a task: any number of
restarts, and a stopped task comes to rest. C63: a round as a function of the outcomes; expected to fail for
tasks without a service. C64: map operations; expected to fail for a second task with the same id.

**C65 (wait group wrapper).** LTS with two counters, separate steps.

**C66, C67 (shutdown).** LTS of the signal handler, Exit, one goroutine per actor, registrations, a clock. C66
expected to fail for actors registered after the iteration; C67 expected to fail (Exit waits for the acceptor before the
select with the timeout): refutations; partial: within 30 seconds, or as soon as Exit has returned if that is later.

**C68-C71 (events, subscriptions, context).** Association lists. C68 expected to fail unless the event has the name of the
channel; C69 expected to fail (System.Sub drops the options).

**C72-C79, C86, C87 (data helpers).** Functions on lists. Expected to fail: C72 (shadowed err), C73 (WriteJSON does not
truncate), C74 (names without a dot), C75 (same address twice; a Build that panicked), C76 (WithAddr overwrites), C77
(shortFile and a leading slash), C86 (NaN), C87 (a failed encoding erases the contents).

**C80, C81 (spans).** Metadata maps and span trees with a tracer as parameter. C81 expected to fail (End twice).

**C82, C83 (TCC example).** Participants as small state machines; C82 expected to fail (no cancel is ever sent), C83 expected to fail
for overlapping transactions; partial for transactions one after the other.

**C88, C89 (timers).** Same model as C17; C88 by an invariant that ties the ticks queued to the callbacks started. C89
expected to fail (nextTick is written only by OnTimer and Reset).

**C90-C92 (logger).** Functions on lists of options and a heap of encoder configurations. C91 expected to fail (the
configuration is copied too early), C92 expected to fail (fields that nobody reads): exact set of options.

**C93, C94 (gRPC server).** C93: interceptors as a fold; expected to fail for streams. C94: LTS of Init, Run, Serve and Close;
expected to fail (Close does not close the listener itself).

**C95-C97 (tracing).** C95: fold over options. C96 expected to fail (trc is never set), C97 expected to fail (limits unused).

**C98 (reuse of a wrapper).** LTS of one caller, the waiter goroutines of its calls and the actors; expected to fail (the waiter
closes `mw.Done`, not the channel made for its call). Partial: invariant that all calls but the last are over; potential for
the coming to rest.

**C99 (shared maps).** LTS of goroutines that run paths of lock operations and accesses. Paths race exactly if two of their
accesses, one a write, hold the lock in ways that go together (invariant one way, a built run the other way); so exact
conditions per map. Expected to fail for maps that are walked through without their lock.

**C100 (what a call carries).** Inductive relation of calls over routing decisions, wire bytes and losses. Induction over it:
what an actor gets, what the caller finds. Expected to fail where the acceptor drops errors (C27).

**C84, C85 (loader).** C84: fold over the factory's map in any order. C85 expected to fail (shared options, C60).

**C124 (trace trees).** A state is the list of spans in the context of each wrapper. The specification says by recursion over the history
which span a wrapper shows (the last call made with it, else what its source showed); the invariant is that the model agrees. The partial
theorem derives the tree from a discipline for wrappers; the refutation holds for every wrapper that is used twice for one call.

**C125 (deadlines of reentrant calls).** The model of C15 and C16 with a clock and the two contexts of a call. Full statement: in a state
where nothing is left to be done and the limit has come, the future is completed. The partial theorem uses C16 and the invariants of C16;
the refutations give such states for every time.

**C126 (options of client calls).** Both loops over the values, written as in the code; exact characterisations by induction.

**C127 (registering again).** Over the model of C29-C31, without failing Redis accesses. The invariant of the partial theorem says what
the map of the node, its `IDMap` and the record of the id have to do with each other at each place of the code; the refutation is an
invariant of the stuck state, so that it holds for every continuation.

**C128 (the end of a subscription).** Over the model of C39-C41, with the exit of actors and the return of `Close`. The refutations
hold for every list of messages; the partial theorem is an invariant of a channel that was removed.

**C129 (races of futures and buffers).** The step models of C07 (futures) and C05 (unbounded buffers) get a table that says which plain
variables each step uses; a race is two enabled steps of different goroutines on one variable, one of them writing. Who uses a variable
holds the lock before and after the step. A second theorem checks the table: a step that changes a variable is listed as a writer.

**C130 (mock service).** The generated code is an instance of the loop of C44-C47 and of the grammar of C120.

**C131 (goroutines of calls).** The model of C12 gets two more actions: an actor refuses messages, and its loop ends. A state is quiet
when no step of an operation is possible. In a quiet state every goroutine that is left is named, and the mailbox that keeps it is named;
a bound on the steps per operation (14) says that every execution without new operations gets quiet.

**C33 (64-bit counters).** `HINCRBY` fails when the sum does not fit into 64 bits, and the other commands of the pipeline are
executed all the same. The model with these counters equals the one with unbounded counters as long as all sums fit.

**C132 (buffers of callers).** The writers of C45 are shown to panic in every buffer that is too small; with this the methods that take
a buffer are characterised for all buffers. A slice is its content and the memory behind it up to the capacity.

**C133 (what is kept).** A node is kept if it can be reached by `next` pointers from the queue or from a local variable that is used
again. The backlog is modelled a second time as a slice of an array, with any capacity chosen by `append`; this model is shown to refine
the one with a list, so that C05 and C06 carry over.

**C134 (32-bit count).** The model of the queue counts with integers; a second one wraps at 32 bits. The invariant bounds the count by
the values that wait and the calls that run, so below 2^31 both have the same runs. The witness is a burst of any length, by induction.

**C135 (places).** A stack is a list of frames of any length; a call puts a frame in front, with the line of the call. `runtime.Caller`
and `runtime.Callers` select from it. The theorems hold for all stacks above the call.

**C136 (acceptor).** `Verif/Accept` puts the decoder, `Routing`, the recovery and the encoder of `Verif/Wire` together, for all bytes. What
`Call` does is a parameter: how it ends, and the response at the two moments when the encoder reads it.

**C137 (logger of the process).** `Verif/SLog` has a heap of logger objects and the variable `sLog`; one step per call.

**C138 (loads after a cleanup).** `System/PropsClean` first says for every state which record a call removes, and when it panics; with the
refinement of `Verif/AddressBook` the loads afterwards follow.

**C139 (closing a connection).** `Grpc/Close` models any number of calls of `closeconn` with their goroutines; one invariant per call
relates the places of the two goroutines to the history.

## 5. Axioms per theorem

`lean/Verif/Audit.lean` prints the axioms of every theorem named in MANIFEST.json during the build.
They report as follows (779 theorems; the prefix `Braid.` is left out).

* **propext, Classical.choice, Quot.sound** (398): `Accept.C136_answered_partial`, `Accept.C136_bad`, `Accept.C136_encode_exact`, `Accept.C136_reply`, `Actor.C109_bounded`, `Actor.C109_exit_returns`, `Actor.C109_groups`, `Actor.C109_handled`, `Actor.C109_inside_refuted`, `Actor.C109_reentry`, `Actor.C11_at_most_once`, `Actor.C11_in_order`, `Actor.C12_group_count`, `Actor.C12_never_negative`, `Actor.C12_released_once`, `Actor.C13_exit_drains_partial`, `Actor.C13_idle_loop_partial`, `Actor.C13_second_exit_crashes`, `Actor.C14_accepted_is_handled_partial`, `Actor.C14_closed_refuses`, `Actor.C14_comes_to_rest`, `Actor.C14_rest_handled`, `AddressBook.C32_lookup_exact`, `AddressBook.C32_registered_is_found`, `AddressBook.C32_results`, `AddressBook.C32_unregistered_is_gone`, `AddressBook.C33_bounded_partial`, `AddressBook.C33_load_is_sum_partial`, `AddressBook.C33_register`, `AddressBook.C34_clear_partial`, `AddressBook.C34_for_ever_partial`, `AddressBook.C34_local_exact`, `AddressBook.C34_local_lookup_refuted`, `AddressBook.C35_exact`, `AddressBook.C35_least_over_all`, `AddressBook.C35_wildcard_least_partial`, `AddressBook.C35_wildcard_succeeds`, `AddressBook.C36_exact`, `AddressBook.C36_place_exact`, `AddressBook.C36_succeeds`, `AddressBook.C36_two_orders_refuted`, `AddressBook.C37_retry_exact`, `AddressBook.C37_retry_refuted`, `AddressBook.C38_any_number_refuted`, `AddressBook.C38_distinct_ids_partial`, `AddressBook.C38_wrong_one_refuted`, `Book.C102_clear_partial`, `Book.C102_found_partial`, `Book.C102_listed_partial`, `Book.C102_load_partial`, `Book.C102_register_partial`, `Book.C102_unregister_partial`, `Builder.C60_id_private`, `Builder.C60_other_type`, `Builder.C60_private_partial`, `Builder.C60_shared`, `CallTree.C107_circle`, `CallTree.C107_cross_refuted`, `CallTree.C107_forever`, `CallTree.C107_layered_partial`, `CallTree.C107_message`, `CallTree.C107_refuted`, `CallTree.C107_steps`, `CallTree.C131_alive`, `CallTree.C131_forever`, `CallTree.C131_group_partial`, `CallTree.C131_leak_refuted`, `CallTree.C131_left`, `CallTree.C131_returns`, `CallTree.C131_steps`, `CallTree.C131_waiter`, `CallTree.C20_blame`, `CallTree.C20_blame_no_error`, `CallTree.C20_branch_partial`, `CallTree.C20_no_error_partial`, `CallTree.C20_tree_finished_partial`, `CallTree.C21_fresh_group_is_root`, `CallTree.C21_own_group_never_waits`, `CallTree.C21_waits_partial`, `Context.C71_exact`, `Context.C71_value_partial`, `Cron.C54_denotes_partial`, `Cron.C54_exact`, `Cron.C54_overflow_refuted`, `Cron.C54_wrap_step_refuted`, `Cron.C55_no_error_refuted`, `Cron.C55_terminates_iff`, `Cron.C55_zero_step_refuted`, `DisMutex.C101_failed`, `DisMutex.C101_failed_partial`, `DisMutex.C101_lost_refuted`, `DisMutex.C101_taken`, `DisMutex.C42_exclusion`, `DisMutex.C42_lease_in_call`, `DisMutex.C43_lease_kept`, `Errcode.C56_by_number`, `Errcode.C56_empty_text_only`, `Errcode.C56_equivalence`, `Future.C07_all_started`, `Future.C07_at_most_once`, `Future.C07_comes_to_rest`, `Future.C07_completed_stays`, `Future.C07_no_stuck`, `Future.C07_observed_after_complete`, `Future.C07_rest_started`, `Future.C07_started_with_first_value`, `Future.C08_chain_exact`, `Future.C08_chain_partial`, `Future.C08_chain_refuted`, `Future.C08_exact`, `Future.C08_late_never_completed`, `Future.C08_then_completes_partial`, `Grpc.C103_at_most_once`, `Grpc.C103_result`, `Grpc.C51_bounded`, `Grpc.C51_discipline`, `Grpc.C51_gives_back`, `Grpc.C51_no_leak`, `Grpc.C52_after_call_partial`, `Grpc.C52_after_use_partial`, `Grpc.C52_never_dialed`, `Grpc.C52_refuted`, `Grpc.C53_bound`, `Grpc.C53_one_connection_partial`, `Grpc.C53_reused`, `Grpc.C53_right_address`, `Live.C118_found_partial`, `Live.C118_reached_partial`, `Live.C121_again_partial`, `Live.C121_gone_partial`, `Live.C121_not_reached_partial`, `Live.C121_stopped_partial`, `Loader.C84_failure_refuted`, `Loader.C84_nodes_partial`, `Loader.C84_partial`, `Loader.C85_for_ever_refuted`, `LogLib.C79_exact`, `LogLib.C79_fields`, `LogLib.C79_log_partial`, `LogLib.C79_systemLog_partial`, `LogLib.C79_systemReqInfo`, `Logger.C92_counts_partial`, `Logger.C92_refuted`, `Maps.C99_actors_partial`, `Maps.C99_actors_refuted`, `Maps.C99_chains_partial`, `Maps.C99_chains_refuted`, `Maps.C99_channel_map`, `Maps.C99_collections_partial`, `Maps.C99_collections_refuted`, `Maps.C99_id_map`, `Maps.C99_no_deadlock`, `Maps.C99_options_partial`, `Maps.C99_options_refuted`, `Maps.C99_shared_options_partial`, `Maps.C99_tasks_partial`, `Maps.C99_tasks_refuted`, `Maps.C99_timers_partial`, `Maps.C99_timers_refuted`, `Maps.C99_topic_map`, `Maps.C99_versions_partial`, `Maps.C99_versions_refuted`, `Mgo.C75_addr_refuted`, `Mpsc.C01_exactly_once`, `Mpsc.C01_fifo`, `Mpsc.C02_no_loss`, `Mpsc.C03_comes_to_rest`, `Mpsc.C03_loop_drains`, `Mpsc.C03_no_lost_wakeup`, `Mpsc.C03_rest_drained`, `Mpsc.C04_blame`, `Mpsc.C04_nil_means_drained_partial`, `Mpsc.C133_bound`, `Mpsc.C133_empty`, `Mpsc.C133_nodes`, `Mpsc.C133_values`, `Mpsc.C134_count_partial`, `Mpsc.C134_same_partial`, `Mpsc.C134_wakeup_partial`, `Msg.C49_custom_int_partial`, `Msg.C49_exact`, `Msg.C49_wrong_value_refuted`, `NodeOpts.C108_client_refuted`, `NodeOpts.C108_leak_refuted`, `NodeOpts.C108_weight_refuted`, `Payload.C100_by_id_partial`, `Payload.C100_delivers`, `Payload.C100_error_never`, `Payload.C100_error_refuted`, `Payload.C100_failure_refuted`, `Payload.C100_local`, `Payload.C100_prefilled_refuted`, `Payload.C100_request`, `Payload.C100_response_partial`, `Payload.C100_transparent_partial`, `Payload.C100_two_hops_refuted`, `PubSub.C128_loop_refuted`, `PubSub.C128_process_partial`, `PubSub.C128_stops_partial`, `PubSub.C39_in_order_partial`, `PubSub.C39_one_subscriber_partial`, `PubSub.C39_published`, `PubSub.C39_times`, `PubSub.C39_unbounded_refuted`, `PubSub.C40_delivered_partial`, `PubSub.C40_other_channel_refuted`, `PubSub.C40_somewhere_partial`, `Race.C112_only_empty`, `Race.C112_open_partial`, `Race.C112_queue`, `Race.C113_disciplined_partial`, `Race.C113_never_stopped_partial`, `Race.C122_only_partial`, `Race.C122_sole_partial`, `Race.C122_writes`, `Race.C123_only_partial`, `Race.C123_writes`, `Race.C129_future`, `Race.C129_future_writes`, `Redis.C76_exact`, `Redis.C76_panic_exact`, `RedisOps.C105_life`, `RedisOps.C105_life_partial`, `RedisOps.C105_no_client`, `RedisOps.C106_key`, `RedisOps.C106_name`, `Reenter.C125_deadline_partial`, `Reenter.C125_not_early`, `Reenter.C125_only`, `Reenter.C15_callback_after_completion`, `Reenter.C15_completion_on_actor_partial`, `Reenter.C16_at_most_once`, `Reenter.C16_callback_started`, `Reenter.C16_comes_to_rest`, `Reenter.C16_completed_at_rest`, `Reenter.C16_only_attached`, `Reenter.C16_value`, `Register.C127_again_partial`, `Register.C127_refuted`, `Register.C127_stuck_refuted`, `Register.C29_duplicate_only`, `Register.C29_leak_refuted`, `Register.C29_one_per_id_partial`, `Register.C30_bound`, `Register.C30_exceeded_refuted`, `Register.C30_limit_partial`, `Register.C30_live_partial`, `Register.C31_bound`, `Register.C31_node_unique_partial`, `Register.C31_tight_refuted`, `Reporter.C59_flush`, `Reporter.C59_sender_closed`, `Reuse.C98_patient_partial`, `Reuse.C98_returns_partial`, `Reuse.C98_smooth_partial`, `SLog.C137_default`, `SLog.C137_own_exported`, `SLog.C137_own_partial`, `SLog.C137_set_partial`, `Server.C94_ends_exact`, `Server.C94_graceful_partial`, `Server.C94_no_crash`, `Server.C94_open_exact`, `Server.C94_rest_partial`, `Server.C94_returns_once`, `Share.C110_delivered`, `Share.C110_last_partial`, `Share.C110_refuted`, `Share.C110_undisturbed_partial`, `Share.C111_fresh`, `Share.C111_isolated_partial`, `Share.C111_reply`, `Share.C111_separate`, `Share.C111_swap`, `Share.C111_swap_refuted`, `Shutdown.C66_acceptor_first`, `Shutdown.C66_crash_partial`, `Shutdown.C66_old_stopped_partial`, `Shutdown.C66_records_partial`, `System.C138_exact`, `System.C138_panic_refuted`, `System.C138_panics_exact`, `System.C138_refuted`, `System.C138_symbol`, `System.C138_type_partial`, `System.C23_ids_exact`, `System.C23_local_first`, `System.C23_otherwise_local_first`, `System.C23_symbol_id_refuted`, `System.C24_by_id_history_partial`, `System.C24_by_id_partial`, `System.C24_no_effect_partial`, `System.C24_symbol_id`, `System.C24_symbol_id_refuted`, `System.C25_local_first_hops`, `System.C25_symbol_type`, `System.C25_wildcard_ends`, `System.C25_wildcard_hops_unbounded`, `System.C25_wildcard_one_hop`, `System.C25_wildcard_sample_unbounded`, `System.C26_cleanup_history_partial`, `System.C26_cleanup_partial`, `System.C26_removed_exact`, `System.C27_swallowed_refuted`, `System.C28_not_implemented`, `System.C28_refuted`, `Tcc.C82_refuted`, `Tcc.C82_stuck_refuted`, `Tcc.C82_success_partial`, `Tcc.C83_effect_partial`, `Tcc.C83_overlap_exact`, `Tcc.C83_overlap_refuted`, `Tcc.C83_results`, `TickTask.C114_exact`, `TickTask.C114_never_ends`, `TickTask.C114_never_started_partial`, `TickTask.C114_refuted`, `TickTask.C61_bound`, `TickTask.C61_disciplined_partial`, `TickTask.C61_one_at_a_time_partial`, `TickTask.C61_restarts`, `TickTask.C62_at_most_two_partial`, `TickTask.C62_comes_to_rest`, `TickTask.C62_disciplined_partial`, `TickTask.C62_no_crash_partial`, `Timer.C117_ends_partial`, `Timer.C117_exact`, `Timer.C117_full_refuted`, `Timer.C117_refuted`, `Timer.C17_as_documented_partial`, `Timer.C17_never_early`, `Timer.C17_no_crash_partial`, `Timer.C17_zero_due_partial`, `Timer.C18_answered`, `Timer.C18_bounded_partial`, `Timer.C18_nil_ticker_refuted`, `Timer.C18_no_crash_partial`, `Timer.C19_reset_exact`, `Timer.C89_exact`, `Timer.C89_first_partial`, `TimerService.C64_any_taken_refuted`, `TimerService.C64_stoppable_exact`, `Token.C58_complete`, `Token.C58_forged_refuted`, `Token.C58_not_utf8_refuted`, `Token.C58_round_trip`, `Token.C58_round_trip_partial`, `TopicLife.C104_close_partial`, `TopicLife.C104_due`, `TopicLife.C104_lost_refuted`, `TopicLife.C104_once`, `TopicLife.C104_order`, `TopicLife.C104_published_partial`, `TopicLife.C104_returns`, `TopicOpts.C69_rounding_partial`, `Tracing.C96_args_partial`, `Tracing.C96_args_refuted`, `Tracing.C96_names_partial`, `Tracing.C96_other_name_refuted`, `Tracing.C96_own_name_partial`, `Tracing.C96_traced_partial`, `Tracing.C97_counts_partial`, `Tracing.C97_slow_refuted`, `WaitGroup.C65_count_partial`, `WaitGroup.C65_no_panic_partial`, `WaitGroup.C65_returns`, `WaitGroup.C65_wait`, `Wire.C119_no_amplification`, `Wire.C119_normal_form`, `Wire.C120_accepted_exact`, `Wire.C120_concatenation`, `Wire.C120_malformed_refuted`, `Wire.C120_unambiguous`, `Wire.C120_wellformed_partial`, `Wire.C130_buffer`, `Wire.C130_decode_total`, `Wire.C130_decodes`, `Wire.C130_injective`, `Wire.C130_roundtrip`, `Wire.C132_append_partial`, `Wire.C132_capacity_refuted`, `Wire.C132_fresh`, `Wire.C132_marshal_to`, `Wire.C132_prefix`, `Wire.C132_sized`, `Wire.C44_encoding`, `Wire.C44_header_roundtrip`, `Wire.C44_message_roundtrip`, `Wire.C44_req_roundtrip`, `Wire.C44_res_roundtrip`, `Wire.C45_exact_fill`, `Wire.C45_size_exact`, `Wire.C46_decode_total`, `Wire.C47_header_fields`, `Wire.C47_last_wins`, `Wire.C47_message_fields`, `Wire.C47_route_fields`, `Wire.C47_unknown_ignored`.
* **propext, Quot.sound** (233): `Accept.C136_call_exact`, `Accept.C136_once`, `Accept.C136_recovered`, `Accept.C136_refuted`, `Accept.C136_stack`, `Actor.C10_one_at_a_time`, `AddressBook.C33_unregister`, `AddressBook.C35_max_load_refuted`, `AddressBook.C36_any_node_refuted`, `AddressBook.C36_least_loaded_partial`, `AddressBook.C36_max_load_refuted`, `AddressBook.C36_registered`, `AddressBook.C37_all_or_nothing_refuted`, `AddressBook.C37_fault_reported`, `AddressBook.C37_unregister_complete_partial`, `AddressBook.C37_unregister_stuck_refuted`, `AddressBook.C38_unique_per_node_partial`, `Builder.C60_shared_refuted`, `Builder.C60_type`, `CallTree.C20_nested_expiry_refuted`, `CallTree.C21_remote_refuted`, `Chain.C09_execute_outcome`, `Chain.C09_first_error`, `Chain.C09_nil_iff`, `Context.C133_context_refuted`, `Context.C71_identity`, `Cron.C55_bad_step`, `Cron.C55_terminates_partial`, `Cron.C55_zero_range_refuted`, `Custom.C86_accepted`, `Custom.C86_partial`, `Custom.C87_exact`, `DisMutex.C42_free_lock_taken`, `Errcode.C56_equalError`, `Errcode.C56_new`, `Errcode.C56_other_not_ok_partial`, `Events.C68_any_refuted`, `Events.C68_exact`, `Events.C68_partial`, `Events.C70_dispatch`, `Events.C70_once`, `Events.C70_register`, `Fail.C115_blind`, `Fail.C115_goes_on`, `Fail.C115_left_partial`, `Fail.C115_nil_partial`, `Fail.C115_refuted`, `Fail.C115_result`, `Files.C74_ext`, `Files.C74_refuted`, `Files.C74_split_partial`, `Grpc.C53_tight_refuted`, `Grpc.Close.C139_answered`, `Grpc.Close.C139_clean_partial`, `Grpc.Close.C139_left_exact`, `Grpc.Close.C139_left_forever`, `Grpc.Close.C139_refuted`, `Grpc.Close.C139_result`, `Grpc.Close.C139_unbounded_refuted`, `Live.C118_any_refuted`, `Live.C118_call_refuted`, `Live.C118_local_refuted`, `Live.C118_owner_refuted`, `Live.C121_call_refuted`, `Live.C121_fault_refuted`, `Live.C121_half_refuted`, `Live.C121_overlap_refuted`, `Live.C121_owner_refuted`, `Loader.C84_panic_exact`, `Loader.C85_has_partial`, `LogLib.C78_exact`, `LogLib.C78_flow_partial`, `LogLib.C78_last`, `LogLib.C78_register`, `LogLib.C79_log_refuted`, `LogLib.C79_systemLog_refuted`, `Logger.C90_made`, `Logger.C90_written`, `Logger.C91_independent_partial`, `Logger.C91_shared_refuted`, `Logger.C91_shown_partial`, `Mgo.C75_exact`, `Mgo.C75_first_partial`, `Mpsc.C04_nil_means_drained_refuted`, `Mpsc.C134_burst`, `Mpsc.C134_push_silent`, `Mpsc.C134_wakeup_refuted`, `Msg.C48_panic_exact`, `Msg.C48_req_merge_partial`, `Msg.C48_res_merge_partial`, `Msg.C49_outside`, `Msg.C49_small_representable`, `Msg.C50_exact`, `NodeOpts.C108_client`, `NodeOpts.C108_get_partial`, `NodeOpts.C108_get_refuted`, `NodeOpts.C108_init`, `NodeOpts.C108_node`, `Panic.C116_answers`, `Panic.C116_contained_partial`, `Panic.C116_crash_exact`, `Panic.C116_last`, `Panic.C116_loop_exact`, `Panic.C116_refuted`, `Panic.C116_released`, `PubSub.C128_again_refuted`, `PubSub.C128_closed_refuted`, `PubSub.C128_exited_refuted`, `PubSub.C128_refuted`, `PubSub.C128_spin_refuted`, `PubSub.C39_order_refuted`, `PubSub.C39_reopened_refuted`, `PubSub.C39_tags`, `PubSub.C40_crash_refuted`, `PubSub.C41_errors_partial`, `PubSub.C41_exact`, `PubSub.C41_unknown_topic_refuted`, `Race.C112_writes`, `Race.C113_writes`, `Race.C122_cancel_refuted`, `Race.C122_reset_refuted`, `Race.C123_ctx_refuted`, `Race.C123_returned_refuted`, `Race.C129_buffer_partial`, `Redis.C76_effect_partial`, `Redis.C76_independent_partial`, `Redis.C76_independent_refuted`, `Redis.C76_order_refuted`, `RedisOps.C105_call_partial`, `RedisOps.C106_traced_partial`, `Reenter.C125_busy_refuted`, `Reenter.C125_default_refuted`, `Reenter.C125_in_time_refuted`, `Reenter.C125_timeout`, `Register.C30_cleanup_refuted`, `Register.C31_concurrent_refuted`, `Register.C31_no_limit_refuted`, `Reporter.C59_accounts`, `Reporter.C59_close_delivers`, `Reporter.C59_close_once`, `Reporter.C59_close_returns`, `Reporter.C59_delivery`, `Reporter.C59_drop_only_full`, `Reuse.C98_rest`, `SLog.C137_export`, `SLog.C137_nil`, `Server.C93_built`, `Server.C93_handled_exact`, `Server.C93_panic_exact`, `Server.C93_passed`, `Server.C93_recovered`, `Server.C93_rejected`, `Server.C93_stream_refuted`, `Server.C93_streams`, `Server.C94_no_new_calls`, `Share.C110_overwritten`, `Share.C110_reenter`, `Share.C111_effect`, `Share.C111_pointers`, `Shutdown.C66_clear_refuted`, `Shutdown.C66_crash_refuted`, `Shutdown.C66_late_actor_refuted`, `Shutdown.C67_bound_partial`, `Shutdown.C67_iff`, `Span.C80_caller`, `Span.C80_exact`, `Span.C80_linked_partial`, `Span.C80_others_partial`, `Span.C80_stale_refuted`, `Span.C81_exact`, `Span.C81_partial`, `System.C23_local_id_partial`, `System.C23_otherwise_id`, `Tcc.C83_others`, `Tcc.C83_restores`, `TickRound.C63_crash_iff`, `TickRound.C63_isEnd_stays`, `TickRound.C63_order`, `TickTask.C62_silent_refuted`, `TickTask.C62_unstoppable_refuted`, `Timer.C17_zero_due_refuted`, `Timer.C17_zero_interval_refuted`, `Timer.C18_never_waits`, `Timer.C18_queued_tick_refuted`, `Timer.C19_no_crash`, `Timer.C19_reset_partial`, `Timer.C19_ticker_agrees`, `Timer.C88_all`, `Timer.C88_closed`, `Timer.C88_in_order`, `Timer.C88_none_skipped`, `Timer.C89_stale_refuted`, `TimerService.C64_all`, `TimerService.C64_removed_runs_on`, `TimerService.C64_replaced_refuted`, `TimerService.C64_start`, `TimerService.C64_stop`, `TimerService.C64_stop_error`, `TimerService.C64_stoppable_partial`, `Token.C58_authentic`, `TopicLife.C104_create_silent`, `TopicLife.C104_ends`, `TopicLife.C104_error_reasons`, `TopicLife.C104_fault_reported`, `TopicLife.C104_kept`, `TopicLife.C104_pub`, `TopicLife.C104_published_refuted`, `TopicOpts.C69_create_partial`, `TopicOpts.C69_refuted`, `Trace.C124_exact`, `Trace.C124_tidy_partial`, `Trace.C124_two_refuted`, `Tracing.C95_get_span`, `Tracing.C95_options`, `Tracing.C96_factory_refuted`, `Unbounded.C05_fifo`, `Unbounded.C05_no_loss`, `Unbounded.C06_no_stall`, `Unbounded.C06_reader_drains`, `Unbounded.C06_receivable`, `Unbounded.C133_backlog`, `Unbounded.C133_goes_on`, `Unbounded.C133_refines`, `Unbounded.C133_slots`, `Versions.C57_iterate`, `Versions.C57_iterate_all_partial`, `Versions.C57_newer`, `Versions.C57_next_iff`, `Versions.C57_next_partial`, `Versions.C57_order_refuted`, `Versions.C57_strategy`, `Where.C135_errcode`, `Where.C135_trace`.
* **propext** (137): `Actor.C109_refuted`, `Actor.C13_exit_drains_refuted`, `Actor.C13_hidden_refuted`, `Actor.C14_accepted_is_handled_refuted`, `Actor.C14_refused_unchanged`, `AddressBook.C33_load_is_sum_refuted`, `AddressBook.C33_overflow_refuted`, `AddressBook.C37_success_complete_partial`, `AddressBook.C38_two_nodes_refuted`, `Book.C102_clear_refuted`, `Book.C102_register_refuted`, `Book.C102_stale_refuted`, `Book.C102_unregister_refuted`, `CallTree.C20_timeout_refuted`, `CallTree.C21_nested_refuted`, `Context.C133_context_partial`, `Context.C71_deep_refuted`, `Context.C71_nan_refuted`, `Context.C71_nil_refuted`, `Custom.C87_empty_refuted`, `Custom.C87_failure_refuted`, `Custom.C87_partial`, `DisMutex.C43_empty_value`, `DisMutex.C43_unlock_own`, `Errcode.C56_cause`, `Errcode.C56_empty_text_refuted`, `Errcode.C56_others_unknow`, `Events.C68_event_refuted`, `Events.C68_name_refuted`, `Files.C73_refuted`, `Files.C73_saveFile_partial`, `Files.C73_writeJSON_partial`, `Grpc.C126_call`, `Grpc.C126_call_wait_partial`, `Grpc.C126_call_wait_refuted`, `Grpc.C53_concurrent_refuted`, `Loader.C84_panic_refuted`, `Loader.C85_exact`, `Loader.C85_refuted`, `Loader.C85_seen`, `LogLib.C78_no_key`, `LogLib.C78_refuted`, `LogLib.C79_panic`, `Logger.C91_format_refuted`, `Logger.C91_text`, `Mgo.C75_later_partial`, `Mgo.C75_panic_refuted`, `Mgo.C75_second_refuted`, `Msg.C48_custom_merge_refuted`, `Msg.C48_map`, `Msg.C48_undecodable`, `Msg.C50_header_copied_partial`, `Msg.C50_header_copied_refuted`, `Names.C77_exact`, `Names.C77_funcShortName`, `Names.C77_root_refuted`, `Names.C77_shortFile_partial`, `Race.C112_refuted`, `Race.C113_state_refuted`, `Race.C113_ticker_refuted`, `Race.C122_two_refuted`, `Race.C129_buffer_writes`, `Race.C129_len_refuted`, `Redis.C72_exact`, `Redis.C72_never_refuted`, `Redis.C72_prefix_partial`, `Redis.C72_refuted`, `Redis.C72_values_partial`, `Redis.C76_first_partial`, `Redis.C76_shared_refuted`, `RedisOps.C105_cad_refuted`, `RedisOps.C105_context_refuted`, `RedisOps.C105_nil_conn`, `RedisOps.C105_refuted`, `RedisOps.C105_streams_refuted`, `RedisOps.C106_del_refuted`, `RedisOps.C106_never_refuted`, `RedisOps.C106_refuted`, `Reenter.C15_callbacks_on_actor_refuted`, `Reenter.C16_ended_loop_loses`, `Register.C29_concurrent_refuted`, `Register.C29_duplicate`, `Register.C30_concurrent_refuted`, `Reporter.C59_bad_rate_refuted`, `Reuse.C98_expired_refuted`, `Reuse.C98_refused_refuted`, `Reuse.C98_timeout_refuted`, `SLog.C137_nil_refuted`, `SLog.C137_own_refuted`, `Server.C93_acceptor`, `Server.C94_calls_refuted`, `Server.C94_leak_refuted`, `Server.C94_race_refuted`, `Share.C111_own_header_refuted`, `Share.C111_possible`, `Share.C111_refuted`, `Shutdown.C67_clear_refuted`, `Shutdown.C67_pending_call_refuted`, `Span.C81_end_first`, `System.C22_never_accepted`, `System.C22_origin`, `System.C22_prev_exact`, `System.C22_prev_partial`, `System.C22_remote_prev_refuted`, `System.C23_empty_target`, `System.C26_idmap_refuted`, `System.C26_moved_actor_refuted`, `System.C26_removes_one`, `System.C26_same_address_refuted`, `System.C27_remote_failure_partial`, `System.C27_swallowed_always`, `Tcc.C82_confirm_refuted`, `TickRound.C63_no_service`, `TickRound.C63_panic_partial`, `TickTask.C61_panic_refuted`, `TickTask.C61_restart_refuted`, `TickTask.C62_delay_refuted`, `TickTask.C62_early_refuted`, `TickTask.C62_two_refuted`, `Timer.C19_stop`, `TopicOpts.C69_later_partial`, `TopicOpts.C69_listed`, `TopicOpts.C69_never_refuted`, `Trace.C124_refuted`, `Tracing.C96_names_refuted`, `Tracing.C96_no_tracer_refuted`, `Tracing.C96_result`, `Tracing.C96_untraced_refuted`, `WaitGroup.C65_overflow_refuted`, `WaitGroup.C65_reuse_refuted`, `Where.C135_add`, `Where.C135_add_refuted`, `Where.C135_caller_partial`, `Where.C135_caller_refuted`, `Where.C135_default_refuted`, `Where.C135_method_partial`, `Where.C135_no_trace`.
* **none** (10): `Custom.C86_refuted`, `NodeOpts.C108_init_refuted`, `Redis.C76_connect_refuted`, `RedisOps.C105_life_refuted`, `Span.C81_refuted`, `TickRound.C63_exception_refuted`, `TickRound.C63_no_service_refuted`, `Timer.C19_reset_refuted`, `Tracing.C96_never`, `Versions.C57_skips_refuted`.
* **Quot.sound** (1): `Timer.C89_reset`.

## 6. Findings

Each line names the property that the code violates, how, and the theorem that proves it (prefix
`Braid.` left out). What holds instead is proved by the `_partial` theorems listed in MANIFEST.json.

### Lost, duplicated or late messages

* **C04** `Pop` of the mailbox may return nil although a push has completed, while an earlier push is between its
  swap and its link (`Mpsc.C04_nil_means_drained_refuted`). It is always a single `Push`, that of the next value (`Mpsc.C04_blame`).
* **C13** `Exit` of an actor can return while the handler of the last message runs
  (`Actor.C13_exit_drains_refuted`).
* **C14** A delivery that overlaps with the end of the loop is accepted and never handled
  (`Actor.C14_accepted_is_handled_refuted`).
* **C20** A root call returns nil with its message unhandled when its waiter gives up, and a nested call whose
  context has ended leaves its message behind (`CallTree.C20_timeout_refuted`, `CallTree.C20_nested_expiry_refuted`).
  The only other reason is a call made with the group of some other message (`CallTree.C20_blame`).
* **C21** A call made in a handler with the handler's context returns before its target has handled the message; a
  remote call returns nil when the target refused (`CallTree.C21_nested_refuted`, `CallTree.C21_remote_refuted`).
* **C27** The acceptor logs and drops the error of `Call`, so the calling node sees success
  (`System.C27_swallowed_refuted`).
* **C40** The handler of one channel deletes a message from the stream, so other channels of the topic lose it; what
  a crashed subscriber had read is never delivered (`PubSub.C40_other_channel_refuted`, `PubSub.C40_crash_refuted`).
  Without crashes and removed groups, the first is the only way to lose a message (`PubSub.C40_somewhere_partial`).
* **C39** A message is delivered twice on a channel that is closed and subscribed again from the beginning
  (`PubSub.C39_reopened_refuted`), once for every time (`PubSub.C39_times`, `PubSub.C39_unbounded_refuted`). The loop of the closed
  channel goes on, so the same subscriber can receive a message again, out of order (`PubSub.C39_order_refuted`).
* **C131** A message that `Received` pushes into the mailbox of an actor whose loop has ended (the actor is closed between the check and
  the push, or did not empty its mailbox in ten seconds) is never released from its group. The goroutine that waits for the group
  (system_impl.go:304-307) has no timeout and waits for ever (`CallTree.C131_leak_refuted`, `CallTree.C131_forever`).
* **C33** When the sum of the weights of a node leaves the 64 bits, `HINCRBY` fails and the other commands of the pipeline are
  executed: `Register` returns an error, and the actor is on record and counted, without weight (`AddressBook.C33_overflow_refuted`).
* **C132** `XXX_Marshal` takes the slice up to its capacity, writes at its end and returns its beginning (router.pb.go:51-62): the
  message is lost unless the capacity is exactly `Size` (`Wire.C132_capacity_refuted`, `Wire.C132_fresh`). The library passes exactly
  this capacity.
* **C133** `WithValue` of an actor's context wraps the context once more (actor_context_impl.go:105-107): every value ever set for a key
  is kept until the actor ends, and lookups of older keys pass all of them (`Context.C133_context_refuted`).
* **C134** `Queue.count` is an `int32` (mpsc.go:22, 81): with 2^31 values waiting it is negative, no token is sent and the consumer
  sleeps although the queue is full (`Mpsc.C134_wakeup_refuted`). Below that it does no harm (`Mpsc.C134_same_partial`).
* **C13** A message whose `Received` has returned before `Exit` is called is never handled if it sits in the mailbox behind one whose
  delivery is still under way: the queue looks empty to `checkClose`, `Exit` returns, the loop ends, and the wait group of the message is
  never released (`Actor.C13_hidden_refuted`).
* **C135** `errcode.Add` is exported and shows the place of the caller of its caller (`runtime.Caller(3)`, errcode.go:109;
  `Where.C135_add_refuted`). Records show `helper.go` as their caller unless `WithCallerSkip(2)` is given (options.go:84, 268;
  `Where.C135_default_refuted`); methods of a logger need 1 instead, so no value is right for both (`Where.C135_caller_refuted`).
* **C23, C24** `Register` accepts the ids `?` and `~`, but `Call` and `Send` take them for symbols: such an actor cannot be reached by
  its id, even on its own node (`System.C23_symbol_id_refuted`, `System.C24_symbol_id_refuted`; exactly these: `System.C23_ids_exact`).
* **C136** The response of a remote call is encoded after the recovery interceptor. If `Call` gave up waiting, the handler may still be
  writing to it: a longer response at the second reading makes `MarshalTo` panic, which ends the process (`Accept.C136_refuted`); a
  shorter one is sent as bytes that begin with a zero and cannot be decoded (`Accept.C136_encode_exact`). The error sent to a remote
  caller after a panic contains the whole stack trace of the node (system_acceptor.go:55; `Accept.C136_recovered`).
* **C137** `ExportSLog` does not set a new object but writes into the one given to `SetSLog` (mlog.go:24), which then logs elsewhere with
  another tag (`SLog.C137_own_refuted`). After `SetSLog(nil)` every record of the package panics, and so does `ExportSLog`
  (`SLog.C137_nil`, `SLog.C137_nil_refuted`).
* **C138** The cleanup in `Call` and `Send` unregisters with the weight of the type that the caller names (system_impl.go:265), not that of
  the record: the load of the node can even become negative (`System.C138_refuted`). If the node has no constructor for that type,
  `factory.Get` gives nil and the call panics (`System.C138_panics_exact`, `System.C138_panic_refuted`).
* **C139** `closeconn` sends the result on a channel without a buffer (client.go:79): when it has timed out, the goroutine that closes the
  connection is stuck for ever (`Grpc.Close.C139_refuted`, `C139_unbounded_refuted`). Nothing calls `closeconn`: connections of the client
  are never closed.
* **C129** `Unbounded.Len` reads the backlog without the lock (lib/unbounded/unbounded.go:55-57), while `Put` and `Load` write it
  (`Race.C129_len_refuted`). Nothing in the repository calls `Len`.
* **C128** `Channel.Close` removes the consumer, and the channel if it was the last one (ps_channel.go:122-144), but does not stop the
  read loop: `exitFlag` is read (L62) and never set. The next `XREADGROUP` makes the consumer again, so that a closed subscriber still
  takes messages, each of which no other subscriber of the channel gets (`PubSub.C128_closed_refuted`, `PubSub.C128_again_refuted`). `Exit` does
  not close the channels of the actor (actor_runtime_impl.go:364-377): messages go on into a mailbox that nobody reads, and are
  acknowledged and deleted (`PubSub.C128_exited_refuted`). If the channel is gone, the loop spins: each read fails at once
  (`PubSub.C128_spin_refuted`).
* **C52** `Send` to another node fails unless a `Call` of the process has dialed it before (`Grpc.C52_refuted`).
* **C59** With a sampling rate outside 0 to 1 the first span crashes the process (`Reporter.C59_bad_rate_refuted`).

### Routing and registration

* **C22** On a remote hop the previous type becomes that of the acceptor (`System.C22_remote_prev_refuted`; exactly: `System.C22_prev_exact`).
* **C26** Nodes with the same ip and port 0 take each other's actors for their own and remove each other's records; the
  same for actors that moved after a crash and ids registered twice (`System.C26_same_address_refuted`,
  `System.C26_moved_actor_refuted`, `System.C26_idmap_refuted`).
* **C28** Neither the group nor the all symbol is implemented (`System.C28_refuted`).
* **C29, C30, C31** Concurrent registrations of one id orphan an actor, and exceed the limits; limit 0 switches off
  the check for unique actors (`Register.C29_concurrent_refuted`, `Register.C30_concurrent_refuted`,
  `Register.C30_cleanup_refuted`, `Register.C31_no_limit_refuted`, `Register.C31_concurrent_refuted`). With K overlapping calls
  the limit is exceeded by up to K - 1 and no more (`Register.C30_exceeded_refuted`, `Register.C30_bound`), and a node gets up to K
  actors of a node-unique type (`Register.C31_tight_refuted`, `Register.C31_bound`). Orphaned actors stay for ever: any number of
  them may live under one id although never more than two calls overlap (`Register.C29_leak_refuted`).
* **C127** `AddressBook.Unregister` returns before it deletes the id from `IDMap` if there is no record (addressbook_impl.go:104-113),
  and `Unregister` of the system only logs that (system_impl.go:179-182). "x" registered on node 0 and on node 1, unregistered on node 1
  and on node 0: all calls return nil, and no `Register` of "x" on node 0 succeeds ever again, unless another node registers it first
  (`Register.C127_stuck_refuted`).
* **C33** to **C38** The address book: wrong weights when they differ between Register and Unregister; the local map
  survives `Clear`; a node with the largest load counts as absent; the random choice reads a map twice; a pipeline that
  breaks leaves half a registration; two nodes can register one id (`AddressBook.C33_load_is_sum_refuted`,
  `AddressBook.C34_local_lookup_refuted`, `AddressBook.C34_local_exact`, `AddressBook.C35_max_load_refuted`, `AddressBook.C36_two_orders_refuted`,
  `AddressBook.C36_any_node_refuted`, `AddressBook.C35_exact`, `AddressBook.C36_exact`,
  `AddressBook.C37_all_or_nothing_refuted`, `AddressBook.C38_two_nodes_refuted`). A `Register` that is tried again after its answer was
  lost counts the weight twice; it stays on the node after `Unregister` (`AddressBook.C37_retry_refuted`). Any number of nodes can register
  one id; an `Unregister` on any node then removes the entry of the last one, and takes the weight off the caller
  (`AddressBook.C38_any_number_refuted`, `AddressBook.C38_wrong_one_refuted`).
* **C53** Concurrent first calls to an address open a connection each, of which all but one stay open unused
  (`Grpc.C53_concurrent_refuted`). `k` overlapping
  calls open up to `k` connections, for every `k` (`Grpc.C53_bound`, `Grpc.C53_tight_refuted`).
* **C105** `ConnHGet` uses `context.TODO()`, so a deadline of its caller has no effect (`RedisOps.C105_context_refuted`). `CAD`
  prints an error and returns false, as if the value were another one (`RedisOps.C105_cad_refuted`). `XReadGroup` without streams
  panics (`RedisOps.C105_streams_refuted`). `SetEx` and `Expire` take whole seconds only (`RedisOps.C105_life_refuted`).
* **C106** `doTracing` of the Redis client always returns an error, so no operation is ever traced
  (`RedisOps.C106_never_refuted`); `Set`, `Incr` and `CAD` do not even call it.
* **C107** `Received` refuses a message only if the actor is the originator. A call that goes from a program through actors 0, 1
  and 2 back to 1 is accepted and waits until the timeout (`CallTree.C107_refuted`). Two calls from outside whose handlers call
  each other's actors do the same, without any actor called twice on the way (`CallTree.C107_cross_refuted`).
* **C109** A handler that calls `Unregister` with the id of its own actor never ends: `Exit` waits for the loop, which is running the
  handler (`Actor.C109_inside_refuted`). A `Received` that overlaps with the end of the loop leaves its caller waiting
  (`Actor.C109_refuted`, the same schedule as in C14).
* **C110** `Send` and `Call` write the event into the header of the request and the actor reads it there when it handles the message.
  A wrapper that is sent to two actors one after the other is handled by the first under the event of the second send, if it comes
  before (`Share.C110_overwritten`, for all events). Two `ReenterCall`s from one message share the request in the same way
  (`Share.C110_reenter`).
* **C112** The queue documents that `Empty` must be called by its consumer only (lib/mpsc/mpsc.go:67-69), but the goroutine that
  `Exit` starts calls it while the loop is still in `Pop` (actor_runtime_impl.go:286): a data race on `q.tail`
  (`Race.C112_refuted`). It is the only one (`Race.C112_only_empty`).
* **C113** `stop` reads and sets `State` and reads `TimeTicker` without the mutex of `start`: data races with another starter
  (`Race.C113_state_refuted`) and, with a single caller, with the goroutine of the task (`Race.C113_ticker_refuted`).
* **C114** `stop` stops the ticker, whose channel is never closed, so the goroutine of the task waits forever: every effective start and
  every panic leaks one goroutine (`TickTask.C114_exact`, `TickTask.C114_refuted` for any number of restarts).
* **C115** The loop of an actor only logs the error of a chain, a panic and an unknown event (actor_runtime_impl.go:331-345), and
  `localCall` returns nil whenever `Done` is closed (system_impl.go:330-331), even after its own timeout, which it stored in `Err`
  (L312-317): nil says nothing about success (`Fail.C115_refuted`, `Fail.C115_blind`).
* **C116** Callbacks given to `Then` run on goroutines without `recover` (actor_reenter_impl.go:29, 54): a panic there ends the process. A
  handler that calls `runtime.Goexit` ends the loop of its actor, which stays registered (`Panic.C116_refuted`).
* **C117** Cancelling a timer stops its ticker, whose channel stays open, so its goroutine waits until the actor exits: an actor that makes
  and cancels timers collects goroutines (`Timer.C117_exact`, `Timer.C117_refuted`). After the exit, a goroutine whose tick does not fit
  into the full channel of the ended loop stays forever (`Timer.C117_full_refuted`).
* **C118** `Register` writes the record and the `IDMap` before the actor is in the map of the node (system_impl.go:132-148). A call on the
  node in between takes the record for stale and removes it (L264-270); `Register` returns nil, and the live actor is found by nobody
  (`Live.C118_call_refuted`, `Live.C118_any_refuted`). With `~` the record may be removed after `Register` has returned
  (`Live.C118_local_refuted`). `Unregister` of an id on a node without such an actor removes the record of the one of another node
  (`Live.C118_owner_refuted`).
* **C121** `Unregister` returns nil when the address book could not remove the record (system_impl.go:178-182). Other nodes still send
  calls to the stopped actor, and it cannot be registered again, because the id stays in the `IDMap` (`Live.C121_fault_refuted`). If the
  connection breaks after the first command, a second `Unregister` finds no record and repairs nothing (`Live.C121_half_refuted`). The
  id also stays in the `IDMap` when another node has removed the record before (`Live.C121_owner_refuted`), and `Unregister` may return
  before a cleanup by a concurrent call is complete (`Live.C121_call_refuted`). An `Unregister` during `Register` leaves a live actor
  without a record (`Live.C121_overlap_refuted`).
* **C122** `Stop` and `Reset` use `ticker` and `interval` without a lock, which the goroutine of the timer reads and sets when it starts
  (actor_runtime_impl.go:113; actor_timer.go:26, 34-46): an actor that cancels or resets a timer it has just made races with it
  (`Race.C122_cancel_refuted`, `Race.C122_reset_refuted`), and so do two goroutines that reset it (`Race.C122_two_refuted`).
* **C123** When the context of a call ends, `localCall` reads and sets `mw.Err` while the handler may be using the wrapper
  (system_impl.go:333-338; `Race.C123_ctx_refuted`). After a timeout the call returns and the handler may start later, with the
  wrapper that the caller is using again (`Race.C123_returned_refuted`). Without timeouts there is no race (`Race.C123_only_partial`).
* **C124** `Call` and `Send` put their span into `mw.Ctx` (system_impl.go:210, 376) and do not restore it. The next call with the same
  wrapper becomes a child of the finished call before it, instead of its sibling (`Trace.C124_two_refuted`).
* **C125** The timeout of `ReenterCall` (actor_runtime_impl.go:202-210) goes into a context that is given to nobody, L233 is commented
  out. A call without a deadline never times out (`Reenter.C125_default_refuted`). With a deadline the goroutine that waits for it ends
  when `Sys.Call` returns, so a busy or stopped actor delays the future beyond the deadline (`Reenter.C125_busy_refuted`).
* **C126** `CallWait` appends the nil result of a failed type assertion to the options (client.go:148-152), and `Invoke` panics
  (`Grpc.C126_call_wait_refuted`). `Call` returns an error.
* **C120** The decoders convert the field number to int32 (router.pb.go:731, 1090, 1210, 1296): a field with number 2^32 + 1 is taken for
  field 1. `skipRouter` counts the ends of groups without comparing their numbers (L1419-1425), and bits beyond 64 of a ten-byte
  number are dropped. Such bytes are no messages of the format, and other implementations reject or skip them
  (`Wire.C120_malformed_refuted`).
* **C37** An `Unregister` whose connection breaks after the first command has deleted the record that it needs itself: it cannot be tried
  again, the actor stays in the list of its type and its weight on the node (`AddressBook.C37_unregister_stuck_refuted`).
* **C111** `Swap` does not exchange `Req` and `Res`, against its comment; both are shared with the old wrapper
  (`Share.C111_swap_refuted`). `WithResHeader` keeps the pointer that it is given: a header given to two responses, or the header of the
  own request, is shared, and custom fields set later appear in both (`Share.C111_refuted`, `Share.C111_own_header_refuted`);
  `WithReqHeader` copies instead.
* **C108** `NodeWithWeight` and all options given to `Init` of a node have no effect (`NodeOpts.C108_weight_refuted`,
  `NodeOpts.C108_init_refuted`); nor have `WithClientPoolInitNum`, `WithClientPoolCapacity`, `WithClientPoolIdle`, `WithCallTimeout`
  and `ClientAppendStreamInterceptors` (`NodeOpts.C108_client_refuted`). Before a node is built `Get` returns a non-nil interface
  that holds a nil pointer (`NodeOpts.C108_get_refuted`). `Init` of a client opens two connections for an address given twice, and
  one of them is never closed (`NodeOpts.C108_leak_refuted`). A negative `WithMaxConcurrentCalls` panics.
* **C104** Two processes that create a topic at the same time may deliver the entry by which one of them creates the stream to the
  subscribers of the other, as a message without an event (`TopicLife.C104_published_refuted`). A subscription and a message that
  come between the checks of `Topic.Close` and its deletion are lost although `Sub` and `Pub` returned nil, and the subscriber
  receives nothing any more (`TopicLife.C104_lost_refuted`).
* **C102** Calls of the address book that overlap break its records if they concern one id: two `Register` count the load twice
  (`Book.C102_register_refuted`), two `Unregister` make it negative (`Book.C102_unregister_refuted`), an `Unregister` that comes
  between the pipeline of `Register` and its write to the `IDMap` leaves an actor that only its own node finds and that cannot
  be registered again (`Book.C102_stale_refuted`), and a `Register` during `Clear` leaves a record of a node that has stopped
  (`Book.C102_clear_refuted`).

### Panics and endless loops

* **C17, C18** A timer with interval 0 crashes the process, and so does cancelling one during its due time
  (`Timer.C17_zero_interval_refuted`, `Timer.C18_nil_ticker_refuted`).
* **C41** `Pub` to a topic that the process has not subscribed to panics (`PubSub.C41_unknown_topic_refuted`; exactly: `PubSub.C41_exact`).
* **C48** Custom fields panic if the contents decode to a nil map (`Msg.C48_custom_merge_refuted`; exactly: `Msg.C48_panic_exact`).
* **C55** A cron field with step 0 is parsed for ever; ill-formed items are dropped without an error
  (`Cron.C55_zero_step_refuted`, `Cron.C55_zero_range_refuted`, `Cron.C55_no_error_refuted`); so is one with step -2^63, and no other
  (`Cron.C55_terminates_iff`).

### Wrong values

* **C08** `Then` on a completed future returns a future that is never completed (`Future.C08_chain_refuted`); in a chain,
  everything after the first such call is lost (`Future.C08_chain_exact`).
* **C15** Callbacks of reentrant calls do not run on the actor's goroutine
  (`Reenter.C15_callbacks_on_actor_refuted`).
* **C17, C18, C19** Due time 0 gives no tick at once; ticks in the queue run after a timer was stopped; `Reset` with
  the same interval leaves a stopped timer stopped (`Timer.C17_zero_due_refuted`, `Timer.C18_queued_tick_refuted`,
  `Timer.C19_reset_refuted`).
* **C49, C50** int8 and uint8 custom fields read as 0, integers beyond 53 bits are rounded; the timestamp of a header is
  not copied (`Msg.C49_wrong_value_refuted`, `Msg.C50_header_copied_refuted`; exactly: `Msg.C49_exact`,
  `Msg.C50_exact`).
* **C54** A range that wraps around with a step starts its steps again at the smallest value
  (`Cron.C54_wrap_step_refuted`); a step within 59 of the largest int overflows and matches more values
  (`Cron.C54_overflow_refuted`).
* **C56** An error with an empty text is equal to OK (`Errcode.C56_empty_text_refuted`).
* **C57** The next version is the first registered one that is newer, not the smallest
  (`Versions.C57_order_refuted`, `Versions.C57_skips_refuted`).
* **C58** Ids that are not UTF-8 come back changed (`Token.C58_not_utf8_refuted`). The key is the constant "token" (token.go:10): whoever
  reads the source makes valid tokens for any id, also with HS384 and HS512 (`Token.C58_forged_refuted`).
* **C60** Builders of one type share their options (`Builder.C60_shared_refuted`).

* **C61, C62** A tick task whose handler panics runs twice from then on; stopping one before its ticker is made
  crashes; a quick start, stop, start, stop leaves one that cannot be stopped (`TickTask.C61_panic_refuted`,
  `TickTask.C61_restart_refuted`, `TickTask.C62_early_refuted`, `TickTask.C62_delay_refuted`,
  `TickTask.C62_unstoppable_refuted`).
* **C63** A panic in a tick task without a service, or in `ExceptionHandler`, ends the process; `IsEnd` is never reset
  (`TickRound.C63_no_service_refuted`, `TickRound.C63_exception_refuted`, `TickRound.C63_isEnd_stays`).
* **C64** A second task under one id makes the first unstoppable (`TimerService.C64_replaced_refuted`,
  `TimerService.C64_any_taken_refuted`); exactly the tasks that were added under their id last and not removed since
  can be stopped (`TimerService.C64_stoppable_exact`).
* **C65** `Add(1 << 32)` counts 0; a wait group used again too early panics (`WaitGroup.C65_overflow_refuted`,
  `WaitGroup.C65_reuse_refuted`).
* **C66** Actors registered during a shutdown survive it, errors of `Clear` are not reported, unregistering an actor
  meanwhile crashes the process (`Shutdown.C66_late_actor_refuted`, `Shutdown.C66_clear_refuted`,
  `Shutdown.C66_crash_refuted`).
* **C67** The 30 seconds do not cover the acceptor and the address book: a pending remote call blocks the shutdown for
  ever (`Shutdown.C67_pending_call_refuted`, `Shutdown.C67_clear_refuted`).

* **C68** Messages of a channel reach the callback only if their event is the name of the channel and that had no handler
  before; otherwise they are dropped or handled by another (`Events.C68_event_refuted`, `Events.C68_name_refuted`,
  `Events.C68_any_refuted`; exactly: `Events.C68_exact`).
* **C69** `System.Sub` drops the options of the topic (`TopicOpts.C69_never_refuted`).
* **C71** Values under nil, NaN or keys that cannot be compared panic or are lost (`Context.C71_nil_refuted`,
  `Context.C71_nan_refuted`, `Context.C71_deep_refuted`; exactly these keys: `Context.C71_exact`).
* **C72** A failed command cuts the results short without an error (`Redis.C72_never_refuted`; exactly these: `Redis.C72_exact`).
* **C73** `WriteJSON` over a longer file leaves its tail (`Files.C73_refuted`).
* **C74** A file name without a dot has no name (`Files.C74_refuted`).
* **C75** Of two databases with one address only the first is connected; a second `Build` does nothing and reports
  nothing (`Mgo.C75_addr_refuted`, `Mgo.C75_panic_refuted`, `Mgo.C75_second_refuted`;
  exactly: `Mgo.C75_exact`).
* **C76** `WithConnectTimeOut` sets the life time of connections; a URL undoes earlier options; all clients share one
  struct of options (`Redis.C76_connect_refuted`, `Redis.C76_order_refuted`, `Redis.C76_shared_refuted`). Exactly: a client has what
  the last option of any build gives (`Redis.C76_exact`, `Redis.C76_panic_exact`).
* **C77** The short name of a file in the root directory keeps its slash (`Names.C77_root_refuted`), and no other
  (`Names.C77_exact`).
* **C78, C79** Log fields of one name are lost; `SystemLog` drops records above Error (`LogLib.C78_refuted`,
  `LogLib.C79_systemLog_refuted`, `LogLib.C79_log_refuted`; exactly: `LogLib.C78_exact`, `LogLib.C78_last`,
  `LogLib.C79_exact`).
* **C80** A trace value that cannot be read leaves the server without a span (`Span.C80_stale_refuted`;
  exactly: `Span.C80_exact`).
* **C81** `End` twice finishes a span twice; `Begin` twice leaves one open (`Span.C81_refuted`).
* **C82, C83** The coordinator never cancels: a transaction half of which failed stays pending for good; overlapping
  transactions restore each other's values (`Tcc.C82_stuck_refuted`, `Tcc.C82_confirm_refuted`,
  `Tcc.C83_overlap_refuted`; exactly: `Tcc.C83_overlap_exact`).
* **C84** A constructor filed under another name makes `AssignToNode` panic; failed registrations are only logged
  (`Loader.C84_panic_refuted`, `Loader.C84_failure_refuted`; exactly when it panics: `Loader.C84_panic_exact`).
* **C85** A picked actor sees options of earlier ones of its type on the node (`Loader.C85_refuted`), for ever
  (`Loader.C85_for_ever_refuted`); exactly when it sees no others: `Loader.C85_exact`.
* **C86, C87** Values that cannot be encoded are accepted; a failed encoding destroys the contents
  (`Custom.C86_refuted`, `Custom.C87_failure_refuted`, `Custom.C87_empty_refuted`; exactly:
  `Custom.C87_exact`).
* **C89** `NextTrigger` still returns the time of the first tick after it (`Timer.C89_stale_refuted`); it is
  one interval too small for every tick (`Timer.C89_exact`).
* **C91, C92** Loggers show callers as zap does by default, whatever the options say; a configuration that is passed in is
  changed; five options have no effect (`Logger.C91_format_refuted`, `Logger.C91_shared_refuted`, `Logger.C92_refuted`).
* **C93** Interceptors for streams are not installed (`Server.C93_stream_refuted`).
* **C94** `Close` can return while the listener is open, and without graceful stop while calls run
  (`Server.C94_leak_refuted`, `Server.C94_race_refuted`, `Server.C94_calls_refuted`).
* **C96** Operations on MongoDB are never traced, since collections are made without the tracer; if they were, two would
  still not be and some would share a name (`Tracing.C96_no_tracer_refuted`, `Tracing.C96_untraced_refuted`,
  `Tracing.C96_factory_refuted`, `Tracing.C96_names_refuted`, `Tracing.C96_other_name_refuted`); documents of some are not shown
  (`Tracing.C96_args_refuted`).
* **C97** The limits for slow requests and spans have no effect (`Tracing.C97_slow_refuted`).
* **C98** The waiter goroutine closes the field `mw.Done` as it is by then. After a refused call, a call whose context ended or
  one that timed out, the next call with the same wrapper can get its channel closed by the earlier waiter: it returns nil
  unhandled, and the second close panics; the wait group may also be reused too early (`Reuse.C98_refused_refuted`,
  `Reuse.C98_expired_refuted`, `Reuse.C98_timeout_refuted`).
* **C99** Maps are read while they may be written, which ends the process: the actors of a node when two goroutines register
  unique types or one calls `Actors` or `Exit` (`Maps.C99_actors_refuted`), the tick tasks (`Maps.C99_tasks_refuted`), the
  handlers of an actor that subscribes (`Maps.C99_chains_refuted`), its timers when it exits (`Maps.C99_timers_refuted`), the
  options of builders (`Maps.C99_options_refuted`), the list of versions (`Maps.C99_versions_refuted`) and the databases while
  they are connected (`Maps.C99_collections_refuted`).
* **C100** A remote call that fails at the other node returns nil and replaces the response by a blank one
  (`Payload.C100_failure_refuted`); with `?`, a lost answer between two later nodes does the same after the actor has
  answered (`Payload.C100_two_hops_refuted`). What the caller had put into the response is lost
  (`Payload.C100_prefilled_refuted`), and an error that the actor puts into the wrapper never comes back
  (`Payload.C100_error_never`, `Payload.C100_error_refuted`).
* **C101** If Redis sets the key of a lock and its answer is lost, `Lock` tries again, finds its own value and fails; the key stays
  set for up to ten seconds and every other caller fails too although nobody has the lock (`DisMutex.C101_lost_refuted`). A failing
  `Lock` takes at least 2.8 seconds, also if its context has ended (`DisMutex.C101_failed`; it pauses even after the last attempt).

### Seen while reading, not stated as properties

* A second `Exit` of an actor closes a closed channel and crashes.
* Results of reentrant calls that arrive after the loop has ended are lost.
* A wrapper keeps its old error when it is used again and the call succeeds.
* A wrapper that is used again after its call timed out is taken for a nested call, which does not wait.
* A message to "?" may be forwarded between nodes without a bound.
* `Send` never sets the origin.
* `Register` iterates over the map of actors without the lock.
* The flag that ends the read loop of a channel is never set: the loop of a closed channel goes on reading and makes
  its consumer again.
* `Send` to another node passes a nil reply to the gRPC library.
* An actor builder locks its own mutex while it writes the map shared with others; concurrent `WithOpt` calls on two
  builders are a concurrent map write.
* `RegisterVersionStrategy` writes its list without the lock that readers hold.
* All errors without a code are equal to each other and to `Unknow`.
* `StartTask`, `StopTask` and `Stop` of the timer service read its map without the lock: together with `AddTask` the Go
  runtime may end the process.
