# Design of the rbus model and proofs

Target: `/repo` (rdkcentral/rbus). Tool: Lean 4 (4.33.0). The C code was read as text only; it was neither built nor
run.

This file is in three parts: how the work is set up and what it rests on; what is modelled and how each property is
proved; what was found, and the axioms of each theorem.

## Layout

* `lean/Verif/Model/*.lean` - the model: total functions and state machines, each definition with the file and lines of
  the C code it follows, and what it leaves out.
* `lean/Verif/Spec/*.lean` - specifications: what the theorems are stated in, on lists, sets, histories and integers,
  without the model's helpers. Some short ones are in the `Props` file itself.
* `lean/Verif/Proof/*.lean` - helper lemmas. `Proof/Exec.lean` has executions of state machines (`Exec step s₀ h s`: the
  history `h` leads from `s₀` to `s`), which most theorems about histories use.
* `lean/Verif/Props/*.lean` - the property theorems, with an `example` beside them that meets their hypotheses in a
  non-trivial case.
* `properties.jsonl` - the properties in words. `MANIFEST.json` - property to theorem names.
* `seeded/LOG.jsonl` - deliberate bugs put into a scratch copy of the model and what they broke.

## Conventions

* Bytes are `UInt8`; C integers are `BitVec n` / `UIntN` or `Nat`/`Int` with an explicit range hypothesis, whichever
  follows the C text. Floats and doubles are their bit patterns; where they are compared, finite doubles are exact
  integers in units of 2^-1074.
* C strings are `List UInt8` without NUL; the terminating NUL is explicit where the code copies it.
* `Res`: `ok` is a normal return, `fail` an error (or, in state machines, a step that cannot happen now), `ub` undefined
  behaviour: access out of bounds, NULL dereference, use after free, reading an uninitialised variable, signed
  overflow. It is never replaced by a default value.
* Histories are lists of operations with what was seen of them; properties are invariants by induction over histories, or
  refinements to a small abstract state. Threads interleave at the places where the code takes or gives up a mutex,
  waits, or calls the application.
* Where the code violates the property as a user would state it, there are (1) theorems named `..._fails` that prove the
  violation, by a concrete witness or in general, and (2) the strongest restricted version that was found to hold, named
  `..._partial`, with the guard in the statement and a comment saying what is missing.

## Trusted base

* The Lean kernel and the axioms `propext`, `Classical.choice`, `Quot.sound`; the list for each theorem is at the end.
  No axioms of our own, no `sorry`, no `native_decide`, no `bv_decide`.
* That the model follows the C code. The comments cite file and lines for each definition and say what is left out.
* That the specifications say what the property means. They are in `Spec` and in the theorem statements.
* Allocation succeeds, and there are no signals. msgpack-c, cJSON, the C library and pthreads behave as documented. The
  parts of msgpack that rbus relies on are modelled at byte level.
* Build options: without `WITH_SPAKE2`, `MSG_ROUNDTRIP_TIME` and `ENABLE_ROUTE2_QUICK_GET_OPTIMIZATION`.

## What is modelled, and what is not

| code | model | left out |
|------|-------|----------|
| src/rbus/rbus_buffer.c | Buffer | |
| src/rbus/rbus_value.c | Value (encode, decode), Compare, ObjectCompare, Text, DateText, FloatText, Retain (reference counts), Cells (what values hold), Print | values that hold properties or objects in encode and decode; floating-point numbers in hexadecimal notation |
| src/rbus/rbus_property.c, rbus_object.c, src/rtmessage/rtRetainable.c | Retain, Wire, ObjectCompare, Typed, Print | typed getters of values holding properties or objects |
| src/rbus/rbus_filter.c | Filter, Print | |
| src/rbus/rbus_message.c | Messages | confirmations of receipt; wildcards in topics; the provider's side of private connections |
| src/rbus/rbus_handle.c; opening and closing in rbus.c | Handle, Timeout (waiting times) | interleaving at rbus.c:2972-2977; files under /tmp/.rbus |
| src/rbus/rbus_element.c | Element, Locks (of all of src/rbus and rbuscore.c) | printing; removeElement, which nothing calls |
| src/rbus/rbus_tokenchain.c | TokenChain | printing |
| src/rbus/rbus_subscriptions.c | Subscriptions, SubCache, Restart | file errors |
| src/rbus/rbus_intervalsubscription.c | Interval | spurious wake-ups |
| src/rbus/rbus_valuechange.c | ValueChange | the "by" field of events |
| src/rbus/rbus_asyncsubscribe.c | AsyncSubscribe | |
| src/rbus/rbus.c: messages | Wire, Subscribe, Legacy (older values) | |
| rbus.c: subscribing, provider's side | Subscriptions, Subscribe | |
| rbus.c: subscribing, consumer's side | Retry (waiting), Consumer (list of subscriptions), ClientRead (reading of messages by a client), WarnLimit (warnings about duplicate names), RouterStart (where the router listens), DisconnectWatch (notices that a process is gone), SubscribeMany (several at once, without waiting), Messages (listeners for data sent as is), RawMove (moving between connections) | |
| rbus.c: publishing; rbuscore.c: sending and taking in events | Publish, EventWire (from end to end) | events through private connections |
| rbus.c: set, get | Params, Gather, GetExt, SetGet, DynamicTable | wildcards inside SetGet |
| rbus.c: rows, listing and registering elements | Element, Rows, RowWire, Subscriptions, ElementInfo, Register, DynamicTable | |
| rbus.c: methods | Answer, Method, AsyncCall (calls without waiting) | |
| rbus.c: sessions, src/session_manager | Session, SessionWire (from end to end) | |
| src/core/rbuscore_message.c | Message | |
| src/core/rbuscore.c | Answer (dispatch), Params (discovery), Register (elements), Subscribe (requests), Publish, PrivateLink, PrivateServer, PrivateAddress (agreeing on an address), RouterFile (the file that names the broker), DirectCache (the file of private connections), Trace (OpenTelemetry), Core (objects, methods and events), CoreClient (subscriptions), Broker (opening and closing), Discover (answers of discovery) | |
| src/rtmessage/rtVector.c, rtList.c, rtHashMap.c | Vector, LinkedList, HashMap | |
| src/rtmessage/rtMessageHeader.c, rtEncoder.c | Header | |
| src/rtmessage/rtTime.c, rtBase64.c | Time, Base64 | formatting of times |
| src/rtmessage/rtConnection.c | Pending, Dispatch, Reconnect, Destroy | the first connection; requests sent by the reader thread |
| src/rtmessage/rtRoutingTree.c | Routing | statistics |
| src/rtmessage/rtrouted.c | Framing, Router | sockets, encryption, monitoring |
| src/rtmessage/rtThreadPool.c | ThreadPool | failing to make a thread or allocate; calls after destroying has begun |
| src/rtmessage/rtSemaphore.c | Semaphore, Pending | failing operations on mutex and condition |
| src/rtmessage/rtrouteBase.c | PrivateServer (StartInstance, SendMessage, BindListener), Framing (Read) | the contents of headers |
| src/rtmessage/rtMessage.c | Json (fields) | the texts of cJSON; reference counts (see the race in Retain) |
| src/rtmessage/rtSocket.c | Socket | the local end of a connection |
| src/rtmessage/rtLog.c; rbus.c: logging | Log | the RDK logger; formatting of texts |
| src/rtmessage/rtCipher.c, rtMemory.c | | all of it |

The comment at the top of each model file says more.

## Properties, models and proofs

The files are those with the theorems (`lean/Verif/Props/`); the models they use are imported there. Notes on what
is missing are in `MANIFEST.json` and in the comment of each theorem.

| id | status | file | model and proof |
|----|--------|------|------|
| C01 | partial | Buffer | buffer record (bytes, capacity, read position); typed writes and reads; induction over the list of fields; exact criterion (reading fails iff the fields fill the allocation) |
| C02 | proved | Buffer | the same buffer; invariant by induction over writes |
| C03 | partial | Value | value encoding on that buffer; case analysis over types and little-endian lemmas |
| C04 | partial | Value | decoding with `ub` for access out of bounds |
| C05 | partial | Filter | filters on the buffer; induction over NOT-free trees |
| C06 | proved | Wire | filters as message items; structural induction with what follows in the message |
| C07 | proved | Filter | evaluation of filters against the boolean reading of expressions; structural induction |
| C08 | partial | Compare | comparison with an exact model of rounding integers to doubles; order laws |
| C09 | partial | Wire | values, properties and objects as message items down to msgpack bytes; mutual induction |
| C10 | proved | Wire | events; from C06 and C09 |
| C100 | partial | Log | the state after a history is the last level and handler asked for, by induction; the buffer by lemmas about List.set and takeWhile |
| C101 | partial | DynamicTable | the tree fits what was registered, by induction over visits and ways; answers by comparing with a lookup that knows only registration and data |
| C102 | partial | Print | lines of a printed tree; a line has one reading (indentation, first word), lines have one reading as a tree (depths), by induction over the tree. |
| C103 | partial | Core | functions from names to what is registered, related to the lists of objects; one lemma per call, induction over the history; the loop of publishing over turns of two threads. |
| C104 | partial | CoreClient | the callback a program has is folded over calls and results; the list of subscriptions agrees with it, and providers list what is in it, by induction over the history. |
| C105 | partial | AsyncCall | references are counted from the history as those of the program plus those of calls that have not ended; the reference count agrees with this, by induction over the history with the calls kept in a list. |
| C106 | partial | Broker | orderly histories are followed by a sheet of what is open and registered, the global variables being determined by it; for all histories the balance of connections and the owner of the mutex are invariants. |
| C107 | partial | Timeout | the handles' values are related to the past by induction over the calls; reading a number from the buffer is shown to give the number the text begins with by cutting texts into blanks, digits and rest. |
| C108 | partial | Discover | the loop that copies names is shown to give them all, and the four calls are cases over the answer; the router's answers are shown to be of the form assumed. |
| C109 | partial | PrivateAddress | reading a message back gives the texts written; the address is a path whose cuts at 255, 127 and 107 bytes are compared; an invariant over requests relates the list of the provider to the consumers that asked. |
| C11 | partial | Wire | the meta section at the end of a message; arithmetic on the trailing bytes |
| C110 | partial | RouterFile | reading line by line is shown to be the same as an automaton that reads byte by byte and knows how much of the buffer is left; its result follows by induction over the blanks. |
| C111 | partial | SubscribeMany | what is asked for before is undone item by item, by induction over the list, from the invariant of C68 and one more about waiting requests. |
| C112 | partial | DisconnectWatch | whether notices are asked for is characterised by the history, by induction over it with an invariant about the table of listeners; the way back to unwatched states is a second invariant. |
| C113 | partial | RouterStart | the places in the list of listeners by induction over the addresses, with those bound so far as parameter; bringing the socket file to the front is a permutation. |
| C114 | partial | WarnLimit | what is kept is the last warning of the history, by induction over it; elapsed time from C42. |
| C115 | proved | ClientRead | reading k bytes from a divided stream is taking k bytes of its concatenation, by induction over the stream; then the three reads of a message, and induction over the messages. |
| C12 | proved | Header | header codec; big-endian lemmas |
| C13 | proved | Header | inversion of the header parser |
| C14 | proved | Framing | the router's receive state machine; running it over pieces equals running it over their concatenation |
| C15 | partial | Framing | the same; refinement to a list of dispatched messages |
| C16 | partial | Router | dispatch of unroutable requests |
| C17 | partial | Router, Routing | routing tree as a trie; refinement to a set of (topic, owner) pairs |
| C18 | partial | Router, Routing | router with clients and freed routes |
| C19 | partial | Router | the same; frame property of removal |
| C20 | partial | Routing | the same; invariant |
| C21 | partial | Pending | threads, reader and mutex as a transition system; invariant over all schedules |
| C22 | partial | Pending | the same |
| C23 | proved | Dispatch | queue of messages and callback thread; delivered plus queued is what was accepted |
| C24 | partial | Dispatch | fixed table of listeners; refinement to a finite map |
| C25 | partial | HashMap | buckets, any hash function; refinement to a finite map |
| C26 | proved | Vector | vector with capacity; refinement to lists |
| C27 | proved | LinkedList | doubly linked list in a heap; refinement to lists |
| C28 | proved | Registry | registry of subscriptions; invariant over all histories |
| C29 | partial | Registry | the subscribe handler; what an error leaves unchanged |
| C30 | partial | SubCache | cache file and restart; round trip, then invariant |
| C31 | partial | SubCache | loading any bytes; `ub` for access out of bounds |
| C32 | partial | Registry | loss of a connection |
| C33 | partial | Provider | deletion of elements |
| C34 | partial | AsyncSubscribe | queue, application threads and worker; invariant over all interleavings |
| C35 | partial | Interval | publishing and unsubscribing threads with mutexes; invariant over all interleavings |
| C36 | partial | ValueChange | polling; refinement to comparing with the last value reported |
| C37 | partial | Params | provider's set handler over a store; induction over parameters |
| C38 | partial | Params | consumer's loop over providers |
| C39 | partial | Params | the same for getting |
| C40 | partial | Session | session manager; invariant |
| C41 | partial | Retain | heap with counts; invariant: counts equal holds plus pointers |
| C42 | partial | Time | integer arithmetic |
| C43 | partial | Retain | property lists in that heap; refinement to ordered maps |
| C44 | partial | Text | strtol and its relatives; against an independent grammar of numbers |
| C45 | partial | Base64 | groups of three bytes; induction |
| C46 | partial | Provider | publishing loop; against the set of entitled subscribers |
| C47 | partial | TokenChain | token chains; against a matching relation on names |
| C48 | partial | Provider | element tree; refinement to a set of names |
| C49 | partial | Answer | dispatching calls, asynchronous handles; invariant |
| C50 | partial | Subscribe | writer and reader of requests and replies; round trip with what follows |
| C51 | partial | Retry | the retry loop; termination and bound |
| C52 | partial | Handle | list of handles |
| C53 | proved | Filter | comparison of filters; structural induction |
| C54 | partial | Framing | the receive state machine with buffer bounds |
| C55 | partial | Wire | reading values from hostile messages |
| C56 | partial | LinkedList | list destruction |
| C57 | partial | Handle | opening and closing handles; invariant |
| C58 | partial | Routing | topic parsing with array bounds |
| C59 | partial | Router | router messages with malformed payloads |
| C60 | partial | Router | discovery against what is registered |
| C61 | partial | Provider | invariant over histories of the registry |
| C62 | partial | Provider | the same with rows added and deleted |
| C63 | proved | Params | the provider's set handler; its calls as a list |
| C64 | partial | Params | calls made by the consumer against the router's answers |
| C65 | partial | Params | result of a failing set |
| C66 | partial | Text | text and back; induction over digits |
| C67 | partial | Text | writing text into a buffer |
| C68 | partial | Consumer | a consumer's list of subscriptions; invariant relating it to a status computed from the history |
| C69 | partial | Consumer | the loop over several subscriptions with undo; induction |
| C70 | partial | ThreadPool | the pool as threads stepping between locks; invariant relating queue and counters to the history |
| C71 | partial | ThreadPool | the same; counting invariant for the threads that are leaving |
| C72 | partial | Semaphore | threads stepping between locks; invariants relating the value to posts and successes |
| C73 | partial | Messages | refinement of tables, contexts and routes to the list of listeners the application holds, by induction over histories |
| C74 | partial | Reconnect | invariant relating table, calls under way and routes, by induction over interleavings; a deadlock shown to be permanent by an invariant of its own |
| C75 | partial | PrivateLink | invariant relating the calls made to the list, its connections and handles, by induction over interleavings; loops that do not end by induction on the rounds given |
| C76 | partial | PrivateServer | invariant relating requests of consumers to the list and its descriptors, by induction over interleavings |
| C77 | partial | ObjectCompare | induction on the first of two trees; equality as agreement of all paths |
| C78 | partial | DateText | decision logic; digits by arithmetic, texts by computation along the format |
| C79 | partial | FloatText | algebraic; spacing of the numbers of the type against the unit of the last digit |
| C80 | partial | Method | composition of the round trips of messages, metadata and objects over one call |
| C81 | partial | Rows | refinement: a tree of elements against a view from names to entries, by induction over the history of calls |
| C82 | partial | Gather | recursion over the tree of elements against a listing by names; wildcards by induction over the components of the query |
| C83 | partial | GetExt | the loop over destinations against the collected contributions of all, by induction over the destinations |
| C84 | partial | ElementInfo | the recursion over the tree against paths that exist, by induction over the depth; the encoded records read back one after another |
| C85 | partial | Register | the loop over the elements as a run of the router of C17, by induction with the table of names as the invariant; undoing it removes what was added |
| C86 | partial | SetGet | encode and decode of both messages by the round trips of C09 and C10; the loops at the provider by induction over the properties, with the calls of handlers as history |
| C87 | partial | Json | the first field with a name, and the items in it, as invariants over the calls; comparing names is an equivalence |
| C88 | partial | Socket | reading characterised by the last colon and by inverting the printing of IPv4 addresses |
| C89 | partial | RowWire | the bytes are removed first; then every agreed call is a step of C81, and lost messages change nothing |
| C90 | partial | Destroy | threads stepping between locks; invariant over all interleavings; a measure that every step decreases, and a step that is always possible |
| C91 | partial | EventWire | relating the messages to those of C46, round trip of event and metadata (C10), and the subscriber's list (C68) |
| C92 | partial | Cells | refinement, call by call; invariant: each buffer has one value, each block one buffer, each reference one holder |
| C93 | partial | Locks | an order of the mutexes; nested scripts keep it; invariant: what each thread has locked, in that order; waiting goes up the order |
| C94 | partial | Trace | the arrays of each thread hold what a sheet says the thread has; refinement step by step, with bytes of messages; chains by induction over the sheet |
| C95 | partial | Legacy | each text by the theorems on texts of numbers, fractions and dates; lists by induction; values of now by their types being outside the range of the older ones |
| C96 | partial | SessionWire | the number the manager holds is a function of the history, by induction; each call by the theorems on methods |
| C97 | partial | RawMove | subscriptions, contexts and listeners fit together (Wired), the sheet tells which connection each is on, by induction over histories; publishing is then computed |
| C98 | partial | Typed | the heap of C41 with data; the sheet fits it (Fit: lists match name by name, own data has one place), by induction over histories, on top of the lemmas of C43 |
| C99 | partial | DirectCache | reading an item of a message is monotone in what follows (unpack_more), hence an item cut short is none (unpack_short); loading what was saved by induction over the list; refinement of the state to the sheet by induction over histories |

## Findings: where the code does not do what the property says

Each is a theorem about the model: a concrete history or input, or a general statement, in which the property is
violated. The text is the theorem's comment.

* **C01** (Typed values written to an rbus buffer read back unchanged and in order)
  * `C01_exactly_full_always_fails`: C01, the failing case in general: whenever the fields fill the allocation exactly, reading them back fails.
  * `C01_fields_read_back_fails`: C01 fails: eight 32-bit integers written to a new buffer cannot all be read back.
* **C03** (Value encode/decode round trip)
  * `C03_exactly_full_always_fails`: C03, the exact-fill case in general: decoding then always fails.
  * `C03_exact_fill_fails`: C03 fails: there are values, all encodable, which decoding does not return.
  * `C03_long_payload_fails`: C03 fails for long payloads: every byte string of 65536 + n bytes (n < 50) encodes without error and decodes without error to just its first n bytes.
* **C04** (Decoding a value from hostile bytes never touches memory outside the buffer)
  * `C04_decode_hostile_fails`: C04 fails: a string without terminating NUL makes the decoder read past the buffer.
* **C05** (Filters survive the persistent (buffer) encoding)
  * `C05_not_fails`: C05 fails for NOT: a NOT filter is stored without error, but reading it back runs into bytes that were never written.
  * `C05_exact_fill_fails`: C05 fails on exact fill: the AND of two 32-bit integer relations takes exactly 64 bytes.
* **C08** (Value comparison is a total order on comparable values)
  * `C08_datetime_fails`: C08 fails for date-times: any two compare equal.
  * `C08_large_integers_fails`: C08 fails for large integers: two different 64-bit integers compare equal.
  * `C08_nan_fails`: C08 fails for NaN: each of two NaN values is greater than the other.
  * `C08_bytes_overrun_fails`: C08 fails for byte strings of different length: the comparison reads bytes the second value does not have.
* **C09** (Values, properties and objects survive the wire encoding)
  * `C09_null_object_fails`: C09 fails for a value holding a NULL object: what follows it is read as that object. Here a property list of two, a NULL object and a number, is read as something else.
  * `C09_null_text_fails`: C09 fails for values set to NULL text or NULL bytes: sending them reads through NULL.
* **C100** (A message that is logged reaches the handler or is printed from its level up)
  * `C100_marked_fails`: A text of exactly 1023 bytes loses its last byte without any mark: it is shown as a shorter text would be, whose message is whole.
  * `C100_place_fails`: A handler is never told where a message comes from: the file is always empty and the line 0.
  * `C100_back_fails`: Once a handler has been registered, nothing is printed any more whatever is called, and no level keeps a message from the handlers: `rbus_setLogLevel` says it succeeded, and changes nothing.
* **C101** (Tables with a sync handler are read as the provider's data is at the time)
  * `C101_wildcard_fails`: A read with a wildcard fails as a whole when a row goes away while it runs: each row is read by its full name, which calls the handler again, and a row that this removes is an error that ends the read. Here row 1 is there all the time, and its value is lost with that of row 2.
  * `C101_late_fails`: A handler given to a table inside a table after rows exist does not reach these rows: rows have copies of what the template had when they were made, and `rbus_registerDynamicTableSyncHandler` changes the template only. Whatever the data, such a table stays empty, while in rows made later it is kept up to date.
  * `C101_name_fails`: Handlers are told a name without the dot at the end that the description promises. A handler that registers its rows under the name as given makes a second row of the same number each time it is called: the check for an existing row looks for another name.
* **C102** (What is printed tells what is there)
  * `C102_children_fails`: **C102** fails for children: an object without properties prints its name and nothing else, whatever its children and theirs are.
  * `C102_line_feed_fails`: **C102** fails for texts with line feeds: one property whose text goes on in further lines prints as two properties do.
  * `C102_small_integers_fails`: **C102** fails for the integers of eight bits: with sign and without, they are of "unknown type", so that a value and its counterpart print alike.
  * `C102_unset_fails`: **C102** fails for a value that was never set, wherever it is: it has no text, and printing it reads through NULL.
  * `C102_filter_text_fails`: **C102** fails for filters with texts: a text can look like the rest of the filter.
* **C103** (Requests reach what was registered, events those who asked)
  * `C103_race_fails`: The lock is given back before the handler of subscriptions runs, so that a listener can leave while another thread publishes. The number of listeners was counted before: the loop reads beyond the end of the list and uses a NULL address, whatever the listeners are and whoever leaves.
  * `C103_race_skips_fails`: Before that, one who did not leave is passed over: `bob` is a listener all the time and gets nothing.
  * `C103_nested_fails`: Registering the first event of an object takes the mutex a second time for each of the two methods it adds. The mutex refuses that, but gives way when it is unlocked: from the first of the two on the object is used without it, and another thread that removes the object meanwhile frees it under the first.
  * `C103_dispatch_fails`: An object can be freed while a request for it is being handled: the callback thread holds its address without looking it up.
  * `C103_crowded_fails`: An object with 31 methods: registering an event is answered with OUT_OF_RESOURCES and yet the event is there, can be published and subscribed to; the second call succeeds; but nobody can leave any more, for requests to unsubscribe go to the handler of the object.
  * `C103_callback_fails`: Registering an event that is there is answered with success, but the callback given is dropped: the first one is told of listeners.
  * `C103_reserved_fails`: The two reserved methods can be removed like others. Then registering events goes on to succeed, but requests to subscribe go to the handler of the object.
* **C104** (Who subscribed gets the events)
  * `C104_default_fails`: The header promises that the event may be NULL for objects with one event; its length is taken before NULL is replaced by the empty name.
  * `C104_forgotten_fails`: After the provider started again nothing arrives, and subscribing once more is answered with success without the provider being asked: the program has to unsubscribe first.
  * `C104_overlap_fails`: A second thread that subscribes while the request of the first is on its way is told of success; when the first is refused, both are without a subscription.
  * `C104_alias_fails`: An event subscribed to by the name of its object and by its own name: giving up one of them ends both, for the provider knows only one.
* **C105** (A method called without waiting is answered once)
  * `C105_leak_fails`: When there is no thread to be had, the call returns an error and the parameters are never destroyed, although nobody needs them any more; the note of the call is not freed either.
  * `C105_close_fails`: Closing a handle with a call on its way, which the header does not forbid, is undefined behaviour of the call's thread: before the request was sent it reads the handle that was freed, and after it, if the handle was the last, it waits on a connection that was destroyed.
  * `C105_later_fails`: What is sent is not what the parameters were when the call was made: changed by the program after the call returned, they are sent as changed, if the thread had not begun.
* **C106** (All in a process share one connection)
  * `C106_stuck_fails`: Closing when the connection could not be opened is answered with an error, and leaves the mutex locked: whatever the other threads do then, none of them ever gets a connection; opening waits until the thread that closed makes another call.
  * `C106_twice_fails`: Closing twice locks a mutex that was destroyed, and closing without having opened one that was never made.
  * `C106_last_fails`: One who has a single object registered loses it and the connection when another closes: registering is answered with an error then, and calls that do not ask for the connection, like rbus_registerMethod, lock a mutex that was destroyed. With two objects closing leaves the connection alone.
  * `C106_between_fails`: Closing lets go of the mutex when the lists are destroyed and the connection is not: one who opens in between is told of success and has no connection after, and one who registers uses a list that was freed.
  * `C106_first_fails`: Two threads that open the first connection at the same time may both make the mutex, the second while it is in use.
  * `C106_failed_fails`: After opening failed, a call that does not ask for the connection, like rbus_registerMethod, uses a list that was freed.
* **C107** (How long a call waits)
  * `C107_overflow_fails`: A number of seconds that in milliseconds is no `int` makes the next call undefined, here 2147484 (rbus_handle.c:253).
  * `C107_long_fails`: The buffer has no room for a terminator: a file of 25 digits is read on past the buffer (rbus_handle.c:240-249).
  * `C107_cut_fails`: A number of seconds is cut to an `int`: 4294967297 seconds in the file are one second.
  * `C107_names_fails`: The name of the file is cut at 126 characters: for a program whose name has 104 characters the file for getting one value also rules queries with wildcards, whose own file is not looked at.
  * `C107_env_fails`: A variable of the environment that holds no number makes every call of its kind fail at once, whereas a file without a number is ignored and 0 configured stands for the built-in time.
  * `C107_reset_fails`: Configuring 0 gives the built-in time, not the one the environment had given when the handle was opened.
  * `C107_subscribe_fails`: A time for subscribing of 2³¹ ms or more, which can be configured, is below zero when it is used: the search for a provider is given up at once (rbus.c:5067, 5101).
  * `C107_async_fails`: A time in seconds given for an asynchronous call whose milliseconds are no `int` makes the call undefined (rbus.c:6193).
  * `C107_closed_fails`: A handle that was closed is used when it is configured; other calls refuse it.
* **C108** (Discovery gives what the router answered)
  * `C108_short_fails`: An answer with more items than it says: memory past the array is zeroed and written (rbuscore.c:1930, 2015, 2276).
  * `C108_number_fails`: An answer without a number: a variable that was never set is used.
  * `C108_text_fails`: An item that is no text: NULL is copied.
  * `C108_dangling_fails`: When the memory runs out while the names are copied, the array is freed but three of the calls leave it with the caller, with the number of names.
  * `C108_count_fails`: When the memory runs out, the public call reports an error and NULL, but still the number of names.
  * `C108_garbage_fails`: An answer with fewer items than it says: success, and the array has places that were never set.
  * `C108_none_fails`: For a wildcard that matches nothing the caller is told of success, and its counter is not set.
* **C109** (Consumer and provider agree on a private connection)
  * `C109_tcp_fails`: C109: with a broker reached over TCP, every request for a private connection to an element the provider has is undefined: the host of the broker is copied without its end and then printed.
  * `C109_short_fails`: C109: a broker's address of less than 6 bytes that does not begin with `unix` is not refused but read from behind its end.
  * `C109_nameless_fails`: C109: a response of success that has a number where the provider's name should be, and an address, is undefined.
  * `C109_missing_fails`: C109: a request that lacks a field is not refused. An empty one is undefined for every provider, and so is one without a broker for an element the provider has.
  * `C109_twins_fails`: C109: the socket does not tell processes of the same program apart. Two providers that run the same program give a consumer the same socket, although they are different providers.
  * `C109_seam_fails`: C109: nor does it tell where the name of the program ends. The programs `x` and `x_y`, for the consumers `y_z` and `z`, use the same socket, whatever `x`, `y` and `z` are.
  * `C109_long_fails`: C109: consumers whose names agree up to the 107th byte of the socket's file share the socket, whatever follows in them.
  * `C109_second_fails`: C109: if the file has more than 120 bytes, the provider never finds that it listens there already: every request starts another thread for the same socket.
  * `C109_thread_fails`: C109: if no thread can be started, the provider answers that all is well, and keeps nothing: the consumer is sent to a socket where nobody listens.
* **C11** (Message metadata can always be found again)
  * `C11_large_fails`: C11 fails for larger bodies: from 2 GiB - 32 KiB on the offset takes fewer than five bytes, and the receiver takes the end of the last trace string for it. Whatever the names, a body of that many small numbers loses its method name.
* **C110** (The file names the broker)
  * `C110_cut_fails`: C110: a word that does not fit is not refused but cut, and the process uses another address than the one in the file. This holds for every word of more than 255 bytes, and for shorter ones behind blanks.
  * `C110_nul_fails`: C110: a NUL in a line hides the rest of the line: the word behind it is not found, and the search goes on in the next line.
* **C111** (Asking for several subscriptions without waiting is all or nothing)
  * `C111_ended_fails`: C111 fails: a subscription that was ended while its provider was away is asked for together with one that exists. The call fails, but the request stays: when the provider answers it, events go to the handler that was refused.
  * `C111_interval_fails`: C111 fails: subscriptions to the same event that differ in their interval are different ones, and can be had together by `rbusEvent_SubscribeEx`; here they are refused, for every event and any two intervals.
* **C112** (A process learns when another one is gone)
  * `C112_provider_fails`: C112 (failure). A provider that opens no direct handle is never told that a consumer is gone, whatever it registers and however long it runs: its subscriptions stay, because the registration in `rbus_regDataElements` is not compiled.
  * `C112_again_fails`: C112 (failure). A process that has closed its last handle while a direct handle was open is never told again, though it connects again and opens direct handles: the number of these is not 0, so nothing is registered.
  * `C112_order_fails`: C112 (failure). Closing a direct handle after the handle it was made from reads freed memory.
  * `C112_full_fails`: C112 (failure). With all 128 listeners in use, opening a direct handle succeeds though the listener for notices could not be added; this is not made up for when there is room, not even by the next direct handle.
  * `C112_number_fails`: C112 (failure). The listener for notices has the number 2, and so has the listener for raw data of a subscription that its provider gave the number 2. The notice goes to the callback for raw data; and closing the direct handle takes the raw data listener away and leaves the other.
  * `C112_garbled_fails`: C112 (failure). Any client may send to the topic of notices. One that is no JSON text makes every process that is watching read through NULL, after every history.
  * `C112_forged_fails`: C112 (failure). The router passes on what any client sends to the topic of notices, with the number of the listener for notices: client 2 can make client 1 drop the subscriptions of anybody, or read through NULL (`C112_garbled_fails`).
* **C113** (The router listens where it is told)
  * `C113_crash_fails`: C113 (failure). If the router cannot listen at one of its addresses, the first client that connects to another of them makes it read through NULL.
  * `C113_nowhere_fails`: C113 (failure). If the router can listen at none of its addresses, it runs all the same and nobody can connect. So it is when it is started again with the socket file of the last time, which is never removed, still there.
  * `C113_ignored_fails`: C113 (failure). When the configuration file exists, the addresses given as options are ignored, without a word.
  * `C113_many_fails`: C113 (failure). A sixth address among the options is written behind the array of addresses.
  * `C113_text_fails`: C113 (failure). An address in the file that is not a text, such as a port number, is read through NULL.
  * `C113_wait_fails`: C113 (failure). The file's order is kept: with an address of the network first that cannot be bound, the socket file is opened after 17 sleeps of ten seconds, and clients connecting to it crash the router; with a second one before it, it takes more than a thousand years.
* **C114** (Warnings about names registered twice are limited, not lost)
  * `C114_long_fails`: C114 (failure). Names of 127 characters are warned of every time, since one character is lost of what is kept.
  * `C114_turns_fails`: C114 (failure). Two names in turn are warned of every time.
  * `C114_days_fails`: C114 (failure). When the last warning was 25 days ago, the next is left out, because the time between is negative as an `int`.
* **C115** (A client reads each message whole, however it arrives)
  * `C115_damaged_fails`: C115 fails after one message with a damaged header: the bytes of its payload are taken for the next header, so that a good message after it is lost as well. Here the header's last byte is wrong, and the payload is one of six bytes.
  * `C115_overflow_fails`: C115 fails for an RDKC build, whose buffer has 8 KB: six bytes that announce a longer header make the client write outside of it, whatever follows. The first two bytes, which mark a header, are only looked at later.
  * `C115_huge_fails`: C115 fails for a header that announces a payload of 2^31 bytes or more: the length is taken for a negative one, nothing is read, and memory never written to is handed over as the payload.
* **C15** (Router dispatches every well-formed message exactly once, in order)
  * `C15_empty_payload_fails`: C15 fails for a message with an empty payload: as soon as any further byte arrives the router drops the connection, and neither that message nor anything after it is dispatched.
* **C16** (An unroutable request is answered exactly once and never loops)
  * `C16_reply_to_router_fails`: **C16** fails: a request without a route whose reply topic is one of the router's own is handled as a message to that topic, with the payload of the request. Here it makes the router route `A.b` to the sender.
* **C17** (A registered topic reaches its owner and only its owner)
  * `C17_brace_query_fails`: **C17** fails: a component starting with a brace matches whatever child comes first, so that a name nobody registered reaches the owner of another one.
  * `C17_stale_table_fails`: **C17** fails: after the rows of a table are removed, the name stays marked as a table; when something else is registered below it, looking up the name itself reaches the owner of that.
* **C18** (Nothing is routed to a departed client)
  * `C18_advisory_twice_fails`: **C18** fails: an owner that is given the advisory topic twice stays there once it is removed, and the next lookup reads freed memory.
  * `C18_removed_below_fails`: **C18** fails: removing a name leaves its owner in the lists kept for the names above it. If that was the owner's last name, asking for everything below such a name reads freed memory.
  * `C18_router_topic_fails`: **C18** fails: when a client subscribes to one of the router's own topics and then unsubscribes, the router, still going through the routes of this topic, reads the freed one.
  * `C18_wildcard_query_fails`: **C18** fails: after an unsubscription that removes the last name of somebody's route, a wildcard query reads the freed route.
* **C19** (A client cannot remove another client's registrations)
  * `C19_other_client_fails`: **C19** fails: client 2 unsubscribes from a name of client 1, which then gets nothing any more.
  * `C19_router_topics_fails`: **C19** fails: any client can take the router's own topics away; nobody can subscribe afterwards.
* **C20** (Duplicate element names are refused while the first owner is alive)
  * `C20_emptied_name_fails`: **C20** fails: when the owner of a name goes away while somebody else has registered something below it, nobody can register the name any more, although nobody has.
* **C21** (A response is delivered to the request it answers)
  * `C21_timeout_overlap_fails`: **C21 fails, C22 fails.** If the wait of a request times out while the reader thread looks through the list, the entry is removed and its memory given up under the reader's hands.
* **C22** (Mutual exclusion of the pending-request table)
  * `C22_timeout_without_mutex_fails`: **C22 fails.** Whenever a request that timed out leaves, it removes its entry and unlocks the mutex without owning it.
* **C24** (A message reaches the listener whose subscription the router named)
  * `C24_same_id_fails`: **C24 fails.** An id in use is accepted again: two listeners are registered under one id, and the messages for that id all go to the first.
  * `C24_removed_listener_called_fails`: **C24 fails.** A callback can be called after its listener was removed and the removal reported: the lookup and the call are not one step.
* **C25** (Hash map behaves as a finite map)
  * `C25_string_hash_fails`: C25 fails for the default hash function as C defines it: the hash of any key that starts with seven printable characters overflows `int`.
* **C29** (A refused subscription leaves no trace)
  * `C29_raw_data_fails`: C29 (failure). A request for raw data of a property is answered with an error, but the subscription stays; it cannot be unsubscribed, and asking again is answered differently.
  * `C29_provider_told_fails`: C29 (failure). The provider's handler is told about each refused repetition as about a new subscriber: it has counted two subscriptions and one unsubscription when nobody is subscribed any more.
* **C30** (Subscriptions survive a provider restart)
  * `C30_long_name_fails`: C30 fails for names of 255 characters and more. Such a subscription, the ones saved after it and the file are lost.
  * `C30_not_filter_fails`: C30 fails for filters with NOT. A subscription with such a filter, the ones saved after it and the file are lost.
  * `C30_number_fails`: C30 fails for the number of a subscription, under which raw data is sent to the consumer: when the new process registers the event, a restored subscription with number 9 goes on with number 3.
* **C31** (Loading a damaged subscription cache is harmless)
  * `C31_cut_fails`: C31 fails for files that end within the name of a listener: loading them reads beyond the end.
  * `C31_unterminated_fails`: C31 fails for a file with a single wrong byte: without the NUL behind the listener's name, loading reads beyond the copy of the name.
* **C32** (A disconnected consumer's subscriptions are dropped)
  * `C32_filter_fails`: C32 (failure). A subscription with a filter outlives its consumer; so do those with an interval or a duration.
  * `C32_crash_fails`: C32 (failure). If a consumer has subscribed to the same event with a filter and then without, the loss of its connection makes the provider read freed memory.
* **C33** (Deleting an element removes only its own subscriptions)
  * `C33_younger_fails`: C33 (failure). Deleting the first row also removes the younger subscription of the second row.
  * `C33_polling_freed_fails`: C33 (failure). After that, deleting the second row leaves the polling thread with a record of a freed element.
* **C34** (An asynchronous subscribe completes exactly once)
  * `C34_close_fails`: C34 fails when a handle with two pending requests is closed. Only the first is taken back: the callback of the second is called after its handle was closed, or the worker touches the closed handle.
  * `C34_cancel_fails`: C34 fails when a request is taken back during an attempt: whatever the answer, the worker then uses what was freed.
  * `C34_again_fails`: C34 fails for a request that is made in the callback of a failed one for the same event: it is refused.
  * `C34_lost_fails`: C34 fails for attempts that a provider does not answer in a usable way: the callback may be given any error code at all, for instance the one for a timeout, in the first attempt.
* **C35** (An interval subscription publishes the promised number of times)
  * `C35_early_fails`: C35 fails: unsubscribing sends an event although no interval is over. The thread does not look whether it was woken to stop (rbus_intervalsubscription.c:125-132).
  * `C35_outlasts_fails`: C35 fails: a reading that fails is not counted (the `continue` of line 152), so the subscription outlasts its duration: after any number of intervals it may not be over.
  * `C35_deadlock_fails`: C35 fails: unsubscribing after the notice of the end was sent, and before the subscription has removed itself, blocks both threads for ever, and with them everyone who needs the handle's subscriptions. The unsubscribing thread waits for the publishing thread while it holds the mutex that the publishing thread needs to remove the subscription (rbus.c:1145, rbus_intervalsubscription.c:205 and 291).
  * `C35_deadlock2_fails`: C35 fails: also when the notice is sent while the unsubscribing thread looks for the record.
  * `C35_close_fails`: C35 fails: closing the provider's handle frees the subscription and leaves the thread running; with the next interval it uses freed memory (rbus.c:3213-3229 stops only the value-change polling).
  * `C35_negative_fails`: C35 fails: a duration from 2³¹ seconds on comes out negative, and the first event already is the notice that it is over. The consumer may ask for it: the type is `uint32_t` (include/rbus.h:298).
  * `C35_overflow_fails`: C35 fails: an interval of 25 days or more overflows in the thread's very first computation (line 124).
* **C36** (Value-change detection reports every change once)
  * `C36_type_fails`: C36 fails: a value that changes its type, or two large numbers, may compare equal; the change is not reported.
  * `C36_datetime_fails`: C36 fails: no change of a time is ever reported (rbus_value.c:953 returns 0 for different times).
  * `C36_nan_fails`: C36 fails: a value that is not a number is reported as changed at every poll.
  * `C36_bytes_fails`: C36 fails: when bytes are appended to a byte value, the comparison reads bytes the old value does not have.
  * `C36_unwatched_fails`: C36 fails: a property whose value could not be read when it was subscribed is never polled, although the subscription was accepted (line 309 returns nothing; rbus.c:1217).
  * `C36_deadlock_fails`: C36 fails: a request to subscribe or unsubscribe during a poll that has found a change blocks both threads for ever. The polling thread holds the detector's mutex and wants the handle's (rbus_valuechange.c:215, rbus.c:5956); the other holds the handle's and wants the detector's (rbus.c:1144, 1217-1221; rbus_valuechange.c:281, 344).
  * `C36_close_fails`: C36 fails: a change found while the provider's handle is being closed uses subscriptions that are freed already (rbus.c:3217 before 3222).
* **C37** (A failed multi-parameter set on one provider changes nothing)
  * `C37_missing_fails`: C37 fails: when a parameter of the request is not there or cannot be written, the ones before it keep their new values though the request reports failure, even if every handler works.
  * `C37_repeated_fails`: C37 fails: a parameter named twice is left with its first new value when a later one fails, because the kept values are put back in the order in which they were kept.
  * `C37_undecodable_fails`: C37 fails: a value that cannot be decoded is handed to the set handler as no value, and the request succeeds, unless it is the last one.
* **C38** (A multi-parameter set spanning providers is all-or-nothing)
  * `C38_lost_fails`: C38 fails: when the call to one provider is lost and the call to the next succeeds, the set reports success though the first provider never got its parameter.
  * `C38_three_fails`: C38 fails: with three providers, a failure at the third leaves the first one changed, though no call is lost and no other handler fails.
  * `C38_legacy_fails`: C38 fails: a set handler that refuses with code 100 makes the set report success.
* **C39** (A multi-parameter get returns all values or an error)
  * `C39_hidden_fails`: C39 fails: a failure reported by one provider is forgotten when a later provider succeeds.
  * `C39_wildcard_fails`: C39 fails: a wildcard name in the list makes its provider answer for that name alone.
* **C40** (At most one session is open, and only its holder can close it)
  * `C40_stale_id_fails`: **C40 fails** for the id of a session that is already closed: all sessions have the same id, so whenever a client creates a session and closes it, and later (after `ops'`) another client creates one, the first client's old id closes the session of the second.
* **C41** (Reference counting: an object is destroyed exactly when its last owner releases it)
  * `C41_replace_fails`: C41 fails: a property is set to the value it has, which nothing else owns; the value is destroyed and then retained. Without the last call the program is careful, and that call passes only what the program may use.
  * `C41_parent_fails`: C41 fails: the parent of an object does not count as an owner and is not forgotten when it is destroyed, so that going from a child that the program holds to its parent reads freed memory.
  * `C41_circle_fails`: C41 fails: a property whose value holds the property is never destroyed, though the program has released everything.
  * `C41_race_fails`: C41 fails: two threads each release a hold of their own, and the node is destroyed twice, because each subtracts first and looks at the count later.
* **C42** (Time arithmetic is exact)
  * `C42_long_span_fails`: **C42 fails** from 2^31 milliseconds on: the elapsed time is negative.
* **C43** (Object properties behave as an ordered map)
  * `C43_again_fails`: C43 fails: a property that was replaced by another of the same name and is then set again makes the list a circle; looking for a name that is not there never ends.
  * `C43_same_fails`: C43 fails: setting a property the object already has makes the list a circle.
  * `C43_list_fails`: C43 fails: the followers of a property that is set come with it, so that a name may appear twice.
  * `C43_shared_fails`: C43 fails: two objects were given the same property; setting another name in one object sets it in both.
* **C44** (Parsing numbers from text never silently changes them)
  * `C44_blank_fails`: C44 fails: a blank before the minus sign is enough for every negative number to be accepted by a 64-bit value without sign, which then holds another number. Likewise 32-bit values where `long` has 32 bits.
* **C45** (Base64 round trip)
  * `C45_empty_fails`: **C45 fails** for the empty byte string: decoding its encoding, the empty text, reads in front of the text.
  * `C45_bad_padding_fails`: **C45 fails** for texts ending in '=' and another character, whatever that character is.
* **C46** (An event reaches exactly the subscribers entitled to it)
  * `C46_filter_field_fails`: C46 (failure). A subscriber without filter, subscribed after one with a filter, gets the other one's field `filter` with the event.
  * `C46_raw_answer_fails`: C46 (failure). Raw data events are answered with success even if no subscriber's message could be sent.
* **C47** (Wildcard event names match exactly the intended elements)
  * `C47_row_without_alias_fails`: C47 (failure). Whatever the alias asked for, an event name `A.T.[alias].x` also matches the property below every row that has no alias at all: the result of the previous comparison is used.
  * `C47_leading_dot_fails`: C47 (failure). An event name that begins with a dot, otherwise well written, makes a chain whose memory cannot be freed again: `free` is called with an address inside the block.
  * `C47_open_bracket_fails`: C47 (failure). An event name that ends in an opening bracket where a row is expected is read past its end.
  * `C47_one_character_fails`: C47 (failure). Event names of one character are never accepted.
* **C48** (A registered element can be retrieved under its name, and removal removes it only)
  * `C48_late_table_fails`: C48 (failure). An element declared below what is later declared a table is not found any more: here `A.t.x`, then the table `A.t.{i}.`.
  * `C48_again_fails`: C48 (failure). Declaring a table again makes everything below it unreachable.
* **C49** (A provider answers every remote call at most once, in arrival order)
  * `C49_nested_fails`: C49 fails: a call that comes in while a callback runs is never served in a defined way: whatever happened before and whatever the callback returns, its message is read after it was freed.
  * `C49_unregistered_fails`: C49 fails: the callback thread may have looked up the object of a call when another thread unregisters the object; the object is read after it was freed.
  * `C49_direct_fails`: C49 fails: over a direct connection, a callback that gives no response or promises one for later makes the provider use an uninitialised pointer; these are exactly the cases in which it does.
* **C50** (Subscriber and provider agree on the subscribe reply)
  * `C50_get_handler_fails`: C50 fails if the handler for getting fails when an initial value is asked for: the provider made the subscription and says so, but writes nothing about the initial value, and so the consumer takes the number of the subscription for the mark that an initial value follows, and reads it where there is none: it uses variables it never set.
  * `C50_existing_fails`: C50 fails if the provider answers that the subscription exists: the consumer reports success, but takes over neither the number nor whether data is sent as is.
* **C51** (A synchronous subscribe terminates and waits no longer than asked)
  * `C51_long_timeout_fails`: **C51 fails** for a timeout of 2147484 seconds (25 days) or more: converting it to milliseconds overflows.
* **C52** (Handle lookup returns the handle asked for)
  * `C52_unknown_id_fails`: **C52 fails** for an id that no open handle has: while any handle is open, the lookup gives one of them although its id is another.
* **C54** (No client can make the router write outside its receive buffer)
  * `C54_receive_memory_safe_fails`: A client that announces a header length below 6 and sends one more byte makes the router call `recv` with a negative count, that is with no limit, on its read buffer.
* **C55** (Reading a received message cannot corrupt the receiver's memory)
  * `C55_hostile_value_fails`: C55 fails for values: a message announcing a boolean and carrying more than 48 bytes for it makes the receiver write past the value.
  * `C55_truncated_value_fails`: C55 fails for truncated messages: the type of a value that is not there is used.
* **C56** (Destroying a list destroys what is in it, once)
  * `C56_destroyed_once_fails`: **C56 fails.** Data whose item was removed without a destroyer, so that it belongs to the user again, is passed to the destroyer when the list is destroyed, unless the item was used again.
* **C57** (One open handle per component name)
  * `C57_reopen_fails`: **C57 fails** when a component that has the only open handle is opened again and the broker cannot be reached: the previous handle is closed, which also drops the connection, and then freed a second time.
* **C58** (The router parses topic names within its buffers)
  * `C58_long_name_fails`: **C58** fails: looking up any name of more than 32 components writes outside the array of components, whatever is registered.
  * `C58_validated_name_fails`: **C58** fails: the check made when registering lets through names of 33 components.
* **C59** (A malformed message cannot stop the router)
  * `C59_bad_subscription_fails`: **C59** fails: a subscription that is not JSON makes the router dereference NULL, in every state in which it serves its subscribe topic alone.
  * `C59_bad_diagnostic_fails`: **C59** fails: so does a diagnostic message that is not JSON or lacks the command.
* **C60** (Discovery answers match what is registered)
  * `C60_same_name_fails`: **C60** fails when two clients register components of the same name: asked for the elements of this component, the router answers with those of the first alone; the element of the second, though registered, is not named.
* **C61** (A subscription stays until it is ended)
  * `C61_new_id_fails`: C61 (failure). Adding row 1 replaces a subscription of row 10 by a new one with another id; raw data events go by the id.
  * `C61_lost_fails`: C61 (failure). If the provider's handler refuses at that moment, for example because it allows one subscription at a time, the subscription is gone without the consumer being told; the cache file still has it.
* **C62** (A subscription covers what its name addresses, now and later)
  * `C62_dangling_fails`: C62 (failure). A subscription for rows of an inner table that is empty stays when the outer row is deleted, with a reference to a freed element; adding an outer row then reads freed memory.
* **C64** (A provider is only asked about its own parameters)
  * `C64_shifted_fails`: C64 fails: when a name has no provider and a later one has two, the later one's providers are taken for those of the names before, so that a provider is asked for a parameter which is not its own.
* **C65** (A failed multi-parameter set names the parameter that failed)
  * `C65_second_fails`: C65 fails: a failure at the second provider is reported without a name.
  * `C65_single_fails`: C65 fails: a request with one parameter never names it.
* **C66** (A value written as text and read back is the same)
  * `C66_byte_fails`: C66 fails for every RBUS_BYTE value except 0x33: its text is hexadecimal but the first character is read back as it is.
  * `C66_bytes_fails`: C66 fails for every RBUS_BYTES value that is not empty: it comes back as the text of its hexadecimal digits, twice as long.
* **C67** (Converting to text respects the caller's buffer)
  * `C67_string_fails`: C67 fails: a text that does not fit leaves the buffer without a NUL, and so does one of exactly the size.
  * `C67_bytes_fails`: C67 fails: the size is not looked at for RBUS_BYTES values; a buffer smaller than twice the length and one is overrun.
* **C68** (Each event goes to the handler of its own subscription)
  * `C68_refused_fails`: C68 fails: a user ends a subscription while the provider cannot be reached, subscribes again with another handler, and is refused. From then on events go to the first handler, and subscribing is answered with "already exists".
  * `C68_again_fails`: C68 fails: the same while the user is still subscribing again.
  * `C68_unreachable_fails`: C68 fails: an event of a subscription that has been ended goes to its handler if the provider still cannot be told.
  * `C68_concurrent_fails`: C68 fails: two threads subscribe to the same event, one is accepted and the other finds no provider; the next event is dropped and the subscription is ended.
  * `C68_existing_fails`: C68 fails: when the provider answers that it has the subscription, the entry put into the list has a field that is never set and that the next search reads.
  * `C68_initial_value_fails`: C68 fails: the handler ends the subscription when it is given the initial value; the number is then stored in memory that has been freed.
  * `C68_nan_fails`: C68 fails: with NaN in its filter a subscription is never found again: its events are dropped, it can be made twice and cannot be ended.
  * `C68_time_fails`: C68 fails: all times are taken for equal, so that a subscription with a time in its filter stands in the way of one with another time.
  * `C68_pending_fails`: C68 fails: an asynchronous subscription that is pending stands in the way of one to the same event with another interval.
* **C69** (Subscribing to several events is all or nothing)
  * `C69_ended_fails`: C69 fails: a subscription that was ended while its provider was away comes back to life, with the old handler, when subscribing to it is refused.
  * `C69_raw_fails`: C69 fails for `rbusEvent_SubscribeExRawData`: when the second subscription is refused the first one stays; and if the user had a usual subscription like it, that one is ended.
  * `C69_null_fails`: C69 fails for `rbusEvent_SubscribeExRawData`: a handler that is NULL is noticed only when its turn comes, and the subscriptions made before stay.
* **C70** (A task given to the thread pool is run once, in order)
  * `C70_lost_fails`: C70 fails when a worker has just waited long enough: `rtThreadPool_RunTask` counts it as idle and starts no thread, it leaves without looking at the list, and the task is never run although RT_OK was returned (rtThreadPool.c:141-145, 318-323).
  * `C70_max_fails`: C70 fails when a task is given to the pool before the thread made for the one before has begun: threads are counted only when they begin (rtThreadPool.c:121, 325), so that more of them are made than the pool was made for.
  * `C70_serial_fails`: C70 fails also in this: when no RT_ERROR_THREADPOOL_TASK_PENDING was returned and every worker has begun, a task may wait for another to end although the pool was made for more threads. An idle worker that has been woken is counted as idle until it has begun, and no thread is made for the next task (rtThreadPool.c:318-323).
* **C71** (Destroying a thread pool)
  * `C71_waits_fails`: C71 fails when a task has been given to the pool and its worker has not begun: waiting for all tasks waits only while a worker is counted as busy (rtThreadPool.c:243-247), so that the task is cancelled. The warning at 269 is about this.
  * `C71_memory_fails`: C71 fails when the pool is destroyed before a worker just made has begun: it is not counted, the pool is freed, and the worker uses it afterwards (rtThreadPool.c:75, 120-121).
  * `C71_twice_fails`: C71 fails also when all workers have begun: the last worker and the destroying thread may both find that no worker is left, as `rtThreadPool_TryRealDestroy` decides under the lock and frees the pool without it (rtThreadPool.c:74-86). The pool is then freed twice.
  * `C71_elapsed_fails`: C71 fails when a wait ends, because one of several tasks has ended, at an earlier point of the second than it began: nanoseconds are taken for milliseconds (rtThreadPool.c:229-233), so that after half a second a wait of any time below 138 hours is over while a task is still running.
* **C72** (A semaphore lets as many waits succeed as there were posts)
  * `C72_spurious_fails`: C72 fails when `pthread_cond_wait` returns for no reason, as POSIX allows: the wait returns RT_OK although nothing was posted, as the value is not tested in a loop (rtSemaphore.c:109-117).
  * `C72_stolen_fails`: C72 fails also without that, with one thread that posts and one that waits: the post is used by a first wait, which does not block, and the signal given afterwards, without the mutex (rtSemaphore.c:81-82), ends a second.
  * `C72_destroy_fails`: C72 fails when a thread destroys the semaphore as soon as its wait has succeeded, as one may do with `sem_post` and `sem_destroy`: `rtSemaphore_Post` uses it after it has let the waiting thread go on (rtSemaphore.c:81-82). `rtConnection_SendRequestInternal` does so, but holds a mutex that the posting thread holds, unless it has timed out.
* **C73** (A message handler gets the messages on its topic and no others)
  * `C73_same_id_fails`: Two listeners added with the same id, for different topics: all messages for the second are given to the handler of the first. The documentation of `rbusMessage_AddListener` does not mention the id (rbus_message.h:99-111), the sample and the tests use 0 throughout; for data sent as is, the id is chosen by each provider, all of which count from 3 (rbus_subscriptions.c:126), so two providers give a consumer the same one.
  * `C73_same_topic_lost_fails`: Two listeners on the same topic, as two subscriptions to one event's data as is have it: when the second is removed, the router forgets the route of the first, so that the first gets nothing any more.
  * `C73_same_topic_fails`: And the context freed is that of the first: a message for it which waits already is handled with freed memory.
  * `C73_wrong_id_fails`: Removing a listener with another id than it was added with returns an error, but frees its context; the listener stays, and the next message is handled with freed memory.
  * `C73_remove_during_call_fails`: A listener is removed while the callback thread has found its context and not called it yet: freed memory is used.
  * `C73_id_again_fails`: When an id is used again, a message that waited for the removed listener is given to the new one, which listens to another topic.
  * `C73_has_listener_private_fails`: Removing a listener of a private connection does not remove its context, because the contexts are searched for another name than they were stored under: the listener still seems to be there, and the memory is not given back.
  * `C73_remove_all_private_fails`: When all listeners are removed, those of private connections stay in the connection's table with their contexts freed: the next message is handled with freed memory.
  * `C73_has_listener_full_fails`: After adding a listener failed because the table is full, there seems to be one on the topic.
  * `C73_after_remove_all_fails`: After all listeners were removed while there was at least one, every further call that looks at the listeners reads freed memory: the pointers are not taken out of the vector.
* **C74** (After the link to the router is lost and made again, every listener still gets its messages)
  * `C74_drop_while_telling_fails`: What `Careful` leaves out can break it: when the link goes down while the router is being told about the listeners, the thread that does so waits for itself to finish. From then on, whatever happens and whatever the application does, the link is never made again and nothing is ever sent: every thread that sends hangs.
  * `C74_no_flags_fails`: The same happens when the flags of the new socket cannot be set: it is not noted that the attempt is over, and every thread waits for its end.
  * `C74_no_socket_fails`: When no socket is to be had for a moment, the next attempt takes the connection for the first one ever and does not tell the router about the listeners: the link is up, every thread is at rest, and the listener gets no messages.
  * `C74_names_lost_fails`: Further names of a listener are not told again: an element that a provider registered as another name of its object (`.alias`) is unknown to the router after the link was made again, though the object itself is known.
  * `C74_remove_while_telling_fails`: An entry can be taken away while it is read to tell the router about it.
  * `C74_good_link_dropped_fails`: Even in a careful execution a link in good order is thrown away: a thread whose message failed while another was connecting, and that is slow to say so, makes the link once more.
* **C75** (A private connection lasts as long as one of its parameters is open, and requests take it)
  * `C75_close_while_calling_fails`: What happens in between matters: when the connection ends after the request has chosen it and before it is sent, the request uses a connection that was freed.
  * `C75_stale_handle_fails`: After its provider has gone, the handle of a private parameter must not be used: any request made with it about a parameter that is not open goes over its connection, which was freed. There is no way for the application to know.
  * `C75_refused_close_fails`: When the provider does not agree to the closing of a parameter, or cannot be reached, the handle is gone and yet the parameter stays open: opening it again is refused as a duplicate for as long as its provider is not reported gone, whatever the application does.
  * `C75_stale_close_fails`: A handle left over from before its provider went closes the parameter that was opened again since, under another handle: that handle's next request uses a connection that was freed.
  * `C75_two_openers_fails`: Two threads that open the same parameter at once both succeed.
  * `C75_two_providers_hang_fails`: With parameters of two providers open, the last `rbus_close` never returns, and it holds the locks that every other call needs.
* **C76** (A provider serves a parameter privately from opening until closing)
  * `C76_events_lost_before_registering_fails`: From the moment a provider has agreed to a consumer's first private parameter until that consumer has connected and registered, which takes at least the two seconds the listening thread sleeps, every event about it is written to the provider's standard input: the consumer never gets it, neither privately nor through the router.
  * `C76_second_parameter_lost_fails`: On a bus over the network an address is chosen at random for every parameter, while the consumer keeps to its first connection: events about the second parameter are written to the provider's standard input though the consumer has registered.
  * `C76_reopen_lost_fails`: A consumer that closes its last private parameter and at once opens one again loses it: when the provider notices that the old connection has ended, it forgets everything with that address. Both calls succeeded, and yet events go through the router and requests are refused.
  * `C76_reopen_bind_fails`: Nor does it help when the new thread comes first: it cannot bind the address still in use, takes that for its own end, and removes the socket file and everything opened.
  * `C76_intruder_fails`: Anybody on the machine may connect to the address of a private connection, and whoever does puts an end to it: requests on the consumer's own connection are never read again.
  * `C76_close_while_used_fails`: What `Quiet` leaves out: when a parameter is closed while an event about it is being sent, or while a request about it is being handled, the entry is read after it was freed.
* **C77** (Comparing objects tells whether they are the same)
  * `C77_not_an_order_fails`: C77 fails as an order: of two objects with different properties each is greater than the other, so objects cannot be sorted by comparing them.
  * `C77_nameless_fails`: C77 fails for objects without a name, which is how the parameters of methods are made: comparing two dereferences a NULL pointer, whatever they contain.
  * `C77_repeated_name_fails`: C77 fails when the second object has two properties of one name: only the first of them is compared, so objects with different properties are equal; and compared the other way round they are not.
  * `C77_later_properties_fails`: C77 fails for values that hold several properties: only the first is compared, so two values are equal whatever follows it.
  * `C77_type_ignored_fails`: C77 fails for the type of an object: a table and a plain object of the same name and contents are equal.
  * `C77_null_inside_fails`: C77 fails for values whose object or property is NULL: two of them differ, each being less than the other.
* **C78** (A time written as text is read back as the same time)
  * `C78_year_1900_fails`: C78 fails for the year 1900, which is taken for a missing date: the text has the year 0000 and the month before, and reading it gives the time with all fields 0.
  * `C78_no_date_fails`: C78 fails for times without a date, such as `0000-00-00T01:30:00Z`: reading drops the time of day.
  * `C78_far_year_fails`: C78 fails from the year 10000 on: the text of such a value is refused when it is read.
  * `C78_bad_zone_fails`: C78 fails for zones not written with six characters: they are ignored, and the time is taken to be UTC. So `2024-01-01T10:00:00+5:30` is read as ten o'clock UTC, and anything may follow the seconds.
  * `C78_zone_notation_fails`: C78 fails for zones in another notation: in `+05.30` the minutes are dropped, and any other sign is taken for a plus.
  * `C78_no_such_day_fails`: C78 fails for days the month does not have: 2023-02-31 is accepted.
  * `C78_dst_uninitialised_fails`: C78 fails for the daylight-saving flag: it is never set, so that two readings of one text can give different values, and what the stack held goes out with them.
* **C79** (A floating-point number written as text is read back as the same number)
  * `C79_double_back_fails`: Two doubles between 4 and 8 have the same text, so one of them, at least, does not come back. Small numbers, such as 10^-20, are written as zero.
  * `C79_single_back_fails`: Two singles between 8 and 16 have the same text. Small numbers, such as 10^-7, are written as zero.
* **C80** (The caller of a method gets what the handler gave)
  * `C80_empty_answer_fails`: C80 fails for a success answered later without parameters: the caller is given an object the provider never made. It is the metadata of the message read as an object, here named "METHOD_RESPONSE" and with a child.
  * `C80_later_error_code_fails`: C80 fails for an error answered later with parameters: it is not noted in them, whereas the same error returned at once is.
  * `C80_error_string_fails`: C80 fails for a handler that explains its error in `error_string` without setting `error_code`: the caller does not get the explanation.
  * `C80_error_texts_fails`: The texts fail for the codes from 22 on ("invalid method", "not writable", ...): all are an "unknown error".
  * `C80_timeout_fails`: C80 fails for an asynchronous call with a timeout of 2147484 seconds (25 days) or more: the computation of the milliseconds overflows.
* **C81** (Tables have exactly the rows that were added and not removed)
  * `C81_number_in_use_fails`: A provider's handler that gives a number in use makes a second row of the same name, and the row is still there after it was removed.
  * `C81_star_removed_fails`: Removing the row `*` of a table removes the row template: the next row added is made from nothing, and the provider crashes.
  * `C81_template_removed_fails`: The same with the name of the row template itself, and when the provider unregisters it.
  * `C81_legacy_success_fails`: A handler may answer with the legacy code of success, 100: the caller is told that the row was added, and there is no row.
  * `C81_register_twice_fails`: Registering a row whose number is 2^31 or more is not seen as a repetition: the name looked for has a negative number. There are two rows of one name.
  * `C81_register_without_dot_fails`: Nor is a repetition seen if the table is named without the dot at the end.
  * `C81_register_elsewhere_fails`: Registering a row in something that is not a table crashes the provider.
  * `C81_unregister_property_fails`: Unregistering takes any element: a property is gone for good.
  * `C81_get_handler_fails`: In a table with a get handler every row stands for the row template: removing one row leaves all rows and removes the template, and the next row added crashes the provider.
  * `C81_alias_with_dot_fails`: A row whose alias contains a dot is not found by its alias.
  * `C81_listed_negative_fails`: Numbers of 2^31 and more are listed as negative ones, under names that lead nowhere.
  * `C81_empty_name_fails`: Adding a row to a table with an empty name reads the byte before the name.
* **C82** (Partial paths and wildcards give the values of exactly the elements they stand for)
  * `C82_dynamic_table_hangs_fails`: For a table with a get handler, the query `A.t.1.*` makes the provider run forever: the name of the element is made from a query whose `*` never matches, in a loop that only ends when all is used up. `A.t.1.` is answered.
  * `C82_dynamic_table_fails`: For a table with a get handler, `A.t.*.v` succeeds without values, though `A.t.1.v` has one.
  * `C82_lone_star_fails`: The query `*` makes every provider read before the start of its buffer.
  * `C82_failing_handler_fails`: One handler that fails makes the query `A.t.*.v` fail as a whole, with the handlers of further rows not called; in the answer to `A.t.*.`, which stands for the same values, it is left out, and the query succeeds.
  * `C82_appended_fails`: A handler that appends a property to the one it is given pushes the last value out of the answer: the properties in the answer are counted by handlers. Here the value of `A.t.7.v` is lost.
  * `C82_missing_fails`: A query for elements that no row can have succeeds if the table has no rows, and fails with 17 if it has some.
  * `C82_template_fails`: The partial path `A.t.{i}.` of the row template calls the handler of an element that does not exist, in no row.
  * `C82_long_name_fails`: With a name of 256 bytes or more below a table with a get handler, the buffer for it overflows.
* **C83** (Getting a name or a query gives the providers' values or an error)
  * `C83_stale_fails`: If the first destination fails and the caller's pointer was not NULL before the call, the caller gets success, no values, and its pointer as it was, though the interface says it is set.
  * `C83_unset_fails`: With no error at all the caller's pointer stays as it was if no destination has values.
  * `C83_freed_fails`: If the first destination has no values and the second has, the caller gets success and a pointer to properties that were freed.
  * `C83_use_after_free_fails`: With a third destination that has values, the freed properties are used in the call itself.
  * `C83_hidden_failure_fails`: A destination that fails after others gave values is not reported: the caller gets success and part of the values, and the destinations behind it are not asked.
  * `C83_number_unset_fails`: If the destinations of a query cannot be found, neither the number of values nor the pointer is written.
* **C84** (Listing elements and rows gives what the providers have)
  * `C84_hidden_failure_fails`: The code is that of the last provider asked: if the answer of one before it is lost, the caller gets success with the elements of that provider missing.
  * `C84_error_with_list_fails`: And if only the last one fails, the caller gets an error together with a list of elements, which it has to free.
  * `C84_dynamic_table_fails`: A table with a get handler is not listed, nor is anything below it, and asking for it gives success without elements: the response is empty, so that the strings behind it are read instead of numbers.
  * `C84_long_name_fails`: The name of an object with 255 bytes comes without the dot at its end, as if it were a property.
  * `C84_smallest_depth_fails`: The smallest depth has no absolute value: undefined.
  * `C84_nobody_fails`: If no provider has the name, the caller gets success without elements.
* **C85** (Registering a data model is all or nothing)
  * `C85_rollback_takes_others_fails`: A registration that fails can take elements from another component. Client 2 has `T.b.c`. The provider registers `T.b` and `U`, is refused, as `U` is taken, and rbus unregisters `T.b`; the router removes everything below, and messages to `T.b.c` no longer reach client 2, which is told nothing.
  * `C85_lost_answer_fails`: When the answer of the router is lost, the registration fails with the code for a name that is taken, but the router keeps the element, as only those before are unregistered: messages to it go to the provider, which has no such element, and trying again fails, too.
  * `C85_tree_kept_fails`: The provider does not remove from its own tree what a registration that failed has put there.
  * `C85_long_name_fails`: A name of 128 bytes or more is refused with the code for a name that is taken, though nobody has it: rbus takes names of up to 255 bytes, the router has no room for them.
* **C86** (Values set and read pass between caller and handlers unchanged)
  * `C86_requester_fails`: C86 fails for who asks, when several values are got at once: the get handlers are told the name of the provider itself in place of the caller's.
  * `C86_commit_fails`: C86 fails for committing: a call to commit what was set before gives success, though no handler is called.
  * `C86_backup_requester_fails`: C86 fails for who asks, when old values are read before setting: the get handler is told no name.
  * `C86_code_100_fails`: C86 fails for a handler that refuses with code 100, a success of the old bus: the caller is told that the value was set.
  * `C86_null_text_fails`: C86 fails for values with NULL text: a caller that sets one reads through NULL, and so does a provider whose handler gives one.
* **C87** (What is put into a message of the router is read from it)
  * `C87_set_again_fails`: C87 fails for a field that is set again: reading it gives the old value.
  * `C87_capitals_fails`: C87 fails for two fields whose names differ in capitals: the second cannot be read.
  * `C87_type_fails`: C87 fails for a field of another type: reading a number as a text gives success and NULL, reading a text as a number gives success and a number, and reading a text as a truth value gives success and false.
  * `C87_truncated_fails`: C87 fails for a text read into a buffer of its length, with no room for the end: the call gives success, and the last character is missing.
  * `C87_topic_again_fails`: C87 fails for a topic that is set twice: the first is freed twice.
  * `C87_negative_fails`: C87 fails for a negative index: a message is given with success, and it has no content.
  * `C87_null_fails`: C87 fails for a number read as text into a buffer, as binary data or as topic: this reads through NULL. A topic that is too long for the buffer is written behind it.
* **C88** (The socket that is opened is the one of the address)
  * `C88_overflow_fails`: Counterexample: a host of 128 bytes or more, whatever it is, is written behind the buffer for it.
  * `C88_long_path_fails`: Counterexample: a path of more than 107 bytes is cut with success; the socket is another file. Two such addresses that differ only behind are one.
  * `C88_port_fails`: Counterexample: ports that are not are taken with success: 65616 is port 80, -1 is 65535, `80x` is 80, and `http` and nothing are port 0.
  * `C88_abort_fails`: Counterexample: a host that begins with a digit but is no address, like `256.0.0.1` or `1.example`, and no host at all, is read with success though nothing is stored; asking for the length of the address then aborts the process.
  * `C88_inet6_fails`: Counterexample: whether an IPv6 address is read depends on its first character: one that begins with a letter or a colon is looked up as the name of an interface and refused. One that is read is not printed: neither the text nor the port is stored, with success.
  * `C88_interface_fails`: Counterexample: names of interfaces are cut to 15 bytes: a name that is too long, which no interface has, is taken for the interface it begins with.
* **C89** (Adding and removing rows passes between caller and provider unchanged)
  * `C89_unanswered_fails`: Counterexample: when the answer is lost the caller gets an error, though the handler was called and the row is there. Nor does the caller get its number.
  * `C89_number_on_failure_fails`: Counterexample: a number is stored also when adding the row has failed: the one of the handler that refused, and 0 when there is no table.
  * `C89_malformed_fails`: Counterexample: a request with a number where the name should be makes the provider use a pointer that was never set, for adding and for removing.
* **C90** (Destroying a connection ends its threads and uses nothing freed)
  * `C90_waiting_fails`: Destroying a connection is not safe while requests wait for their answers, though `rtConnection_Destroy` means to wake them: it posts their semaphores and then destroys the list of requests, from which each of them, woken up, removes its item. Whenever a request is still waiting when the connection is destroyed, going on uses freed memory.
  * `C90_from_callback_fails`: A connection cannot be destroyed in a callback: the thread does not wait for itself, so the connection is freed while the callback thread is in use of it; when the callback returns, freed memory is used, in every such execution.
  * `C90_hang_fails`: Destroying a connection need not end: a callback that sends something after the socket was shut down makes the connection again, and a reader thread that had not yet looked at the old socket waits for data on the new one, of which nobody tells it. Neither thread of the connection nor the one that destroys it can go on, unless the router sends something or goes away.
  * `C90_undelivered_fails`: Messages taken in are not all delivered: those in the queue when the connection is destroyed are released without a callback, and nobody is told.
* **C91** (A published event reaches its subscribers as it was published)
  * `C91_unsent_fails`: C91 fails: whatever is published, the answer is the same if not a single message could be sent, so success does not tell that anybody was sent anything.
  * `C91_closed_fails`: C91 fails: an event on its way to a handle that has been closed goes to the last handle of the process, and to its handler if it has such a subscription, which so hears of the event twice.
  * `C91_damaged_fails`: C91 fails: a message whose metadata holds a number but no names is taken to be an event, and a handle with any subscription compares its name with NULL.
* **C92** (A value tells what was put into it last, and gives back its memory)
  * `C92_overwrite_fails`: C92 fails: a value that holds an object (or a property) is given a string; the object is never released again, even when the value and the program's own reference are gone.
  * `C92_copy_fails`: C92 fails: a value that holds an object (or a property) is copied: the copy is no copy, keeps its own type, and loses its own data: here a number turns to 0.
  * `C92_other_type_fails`: C92 fails: the string of a value of another type, which the code promises to be NULL, is undefined unless the value is zero.
  * `C92_null_fails`: C92 fails: the length or the bytes of a NULL string cannot be asked for.
  * `C92_self_fails`: C92 fails: a string cannot be set from (the start of) itself.
* **C93** (Threads never wait for each other forever, and what a lock guards is used by one thread at a time)
  * `C93_value_change_fails`: The polling thread publishes a change of one property while another process subscribes to another property of the same component: the polling thread has the mutex of the watched properties and waits for that of the subscriptions, the callback thread has that and waits for the first. From then on the component serves nobody.
  * `C93_interval_fails`: The time of a subscription with an interval is over while its client unsubscribes: the thread of the interval locks the records and then the subscriptions, the callback thread the other way round.
  * `C93_close_fails`: An event comes in while `rbus_close` closes the last handle: it waits for the callback thread to end, and the callback thread waits for the mutex of the handles, which `rbus_close` has. `rbus_close` never returns.
  * `C93_close_client_gone_fails`: The same when the news that a client has gone comes in while the last handle is closed.
  * `C93_close_direct_fails`: A private connection is closed while an event comes in through it whose handler gets a value: `rbus_closeDirect` has the mutex of the private connections and waits for the thread of the connection, which waits for that mutex.
  * `C93_handler_publishes_fails`: The handler of a property publishes, called for a subscription with an interval, while the callback thread begins to watch the property for another subscription: the handler runs under the mutex of the element and waits for that of the subscriptions, the other has that and waits to call the get handler.
  * `C93_handler_registers_fails`: The handler of a property registers a row with a watched property while the polling thread gets the value of the property.
  * `C93_handler_subscribes_fails`: The handler of a method subscribes while another thread subscribes and gets an initial value, whose handler registers a row in which the same element is watched.
  * `C93_sync_handler_fails`: The sync handler of a table registers a row, which it is there for, while another thread registers a row with subscriptions in the cache: the sync handler runs under the mutex of the tree and waits for that of the subscriptions, the other has that and waits for the tree.
  * `C93_open_fails`: The subscribe handler of an element opens another handle. When it is told that a client has gone, it waits for a mutex that its own thread has.
  * `C93_handler_unsubscribes_fails`: An event handler that unsubscribes: the mutex of the handle's subscriptions is unlocked by that, so that another thread changes them while the library still goes through them.
  * `C93_client_gone_fails`: A client has gone that had two subscriptions: after the first is dropped another thread publishes, going through the list while the second is dropped from it.
  * `C93_cache_fails`: An element is registered that has a subscription in the cache: another thread publishes while the library goes through the cache.
  * `C93_connection_fails`: The last handle is closed: the mutex of the lower layer is unlocked too early, so that another thread is sending while the connection is destroyed.
* **C94** (The trace context of a request goes along with everything done on its behalf, and with nothing else)
  * `C94_invoke_async_fails`: A method called asynchronously does not carry the caller's trace: the thread made for the call has none.
  * `C94_direct_fails`: A request through a private connection carries the trace, but the thread that handles it does not take it: what it asks on behalf of the request goes without.
  * `C94_answer_later_fails`: When a handler answers later, the trace of its request stays with the thread that delivers: what a handler of events asks next on that thread carries the trace of a request it has nothing to do with.
  * `C94_long_fails`: A trace longer than 510 bytes is dropped, though RBUS_ERROR_SUCCESS is returned (W3C asks for at least 512 characters of `tracestate`).
  * `C94_header_name_fails`: The name of the header is not removed from a trace set with it, as rbus.h promises.
  * `C94_no_room_fails`: Asking for the trace with an array of no bytes writes outside of it.
* **C95** (Values sent by components of the older library arrive as what their texts mean)
  * `C95_get_refused_fails`: `rbus_get` and `rbus_getExt` do not tell when a text means no value: they return RBUS_ERROR_SUCCESS, with a value without a type.
  * `C95_set_earlier_fails`: A set request of two parameters, the first with the text `12x` for a number and the second as it should be, is not refused: the handler of the first is to be called with a value without a type.
  * `C95_base64_fails`: Data that an older component sends as BASE64 does not arrive as those data, but as the characters of the text.
* **C96** (Everybody learns whether a session is open)
  * `C96_leak_fails`: `rbus_getCurrentSession` leaves an object behind each time its call fails.
  * `C96_unanswered_fails`: If the answer to the request for a session is lost, the caller is told of a failure and has no number, yet the session is open: whoever asks for one, however often, is refused.
  * `C96_restart_fails`: After a new start of the manager the last announcement is wrong: it names an open session, and there is none; closing it is refused.
* **C97** (Data sent as is arrives once, whichever connection it takes)
  * `C97_closed_fails`: After a private connection was closed whose event is subscribed to, the event is listened for on behalf of the handle just freed: the next publication is handled with freed memory.
  * `C97_lost_fails`: While a subscription moves from one connection to the other, to or fro, it is nowhere for a time: what is published then reaches no handler, though the event is subscribed to all the time.
  * `C97_name_fails`: The name a handler is told is never that of the event: it is that of the topic the message came on, which is `rawdata.` and the name through the router, and the consumer's own inbox over a private connection (rbus.c:5224, include/rbus.h:236).
  * `C97_leak_fails`: Each time a private connection is opened and closed while its event is subscribed to, one more context is left behind in memory: the number of listeners is the same.
* **C98** (What is put into an object under a name is what is read from it)
  * `C98_null_fails`: C98: reading a property that an object does not have is answered with an error by the getters of strings and bytes of properties, but the others (`rbusProperty_GetInt32Ex` and the like) dereference the NULL pointer.
* **C99** (The file of private connections tells what was served, and a damaged one does no harm)
  * `C99_cut_fails`: Writing the file is not checked: if only a part gets to the disk, any part that holds the whole number of connections makes every process of the program read from NULL when it starts, and as nothing is done about the file, at every further start.
  * `C99_shared_fails`: Two processes of the same program share the file: one that opens and closes a connection of its own removes it, so that the other is told of nothing when it starts again although it served a connection until it ended.
  * `C99_stale_fails`: The file is only logged: a process that starts serves none of the connections it is told of, and, as it does not write the file either, is told of the same connections at every further start, although it had none.

## Axioms of each theorem

As printed by `#print axioms` for the theorems in `MANIFEST.json`. Nothing else occurs.

* none: C04_decode_hostile_fails, C05_not_fails, C103_callback_fails, C103_crowded_fails, C103_dispatch_fails, C103_nested_fails, C103_reserved_fails, C106_between_fails, C106_failed_fails, C106_first_fails, C106_last_fails, C106_twice_fails, C36_close_fails, C36_deadlock_fails, C37_repeated_fails, C86_backup_requester_fails
* `propext`: Buf.C01_fields_read_back_fails, C05_exact_fill_fails, C06_expressions_sendable, C08_bytes_overrun_fails, C08_datetime_fails, C08_large_integers_fails, C08_nan_fails, C09_null_text_fails, C100_place_fails, C102_children_fails, C102_filter_text_fails, C102_line_feed_fails, C102_unset_fails, C103_lock, C103_race_skips_fails, C104_alias_fails, C104_forgotten_fails, C104_overlap_fails, C105_close_fails, C105_later_fails, C107_closed_fails, C107_cut_fails, C107_env_fails, C107_long_fails, C107_overflow_fails, C107_reset_fails, C107_unchanged, C108_count_fails, C108_dangling_fails, C108_error, C108_garbage_fails, C108_none_fails, C108_number_fails, C108_router, C108_text_fails, C109_seam_fails, C111_ended_fails, C113_many_fails, C113_text_fails, C113_wait_fails, C114_days_fails, C114_turns_fails, C115_huge_fails, C17_brace_query_fails, C17_stale_table_fails, C18_advisory_twice_fails, C18_removed_below_fails, C20_emptied_name_fails, C21_timeout_overlap_fails, C22_timeout_without_mutex_fails, C31_unterminated_fails, C35_close_fails, C35_deadlock2_fails, C35_deadlock_fails, C35_early_fails, C36_nan_fails, C36_type_fails, C36_unwatched_fails, C37_others_untouched, C37_undecodable_fails, C38_lost_fails, C40_close_needs_id, C40_stale_id_fails, C41_circle_fails, C41_every_pointer, C41_parent_fails, C41_race_fails, C41_replace_fails, C44_boolean, C45_empty_fails, C47_leading_dot_fails, C47_open_bracket_fails, C48_again_fails, C48_late_table_fails, C57_reopen_fails, C65_single_fails, C66_byte_fails, C68_again_fails, C68_concurrent_fails, C68_existing_fails, C68_initial_value_fails, C68_nan_fails, C68_pending_fails, C68_refused_fails, C68_unreachable_fails, C69_ended_fails, C69_null_fails, C69_raw_fails, C70_lost_fails, C70_max_fails, C70_serial_fails, C71_elapsed_fails, C71_memory_fails, C71_twice_fails, C71_waits_fails, C73_has_listener_private_fails, C73_id_again_fails, C73_remove_all_private_fails, C73_remove_during_call_fails, C73_same_id_fails, C73_same_topic_fails, C73_same_topic_lost_fails, C73_wrong_id_fails, C74_remove_while_telling_fails, C78_dst_uninitialised_fails, C78_far_year_fails, C78_no_date_fails, C78_no_such_day_fails, C78_year_1900_fails, C78_zone_notation_fails, C81_alias_with_dot_fails, C81_empty_name_fails, C81_get_handler_fails, C81_legacy_success_fails, C81_listed_negative_fails, C81_number_in_use_fails, C81_register_elsewhere_fails, C81_register_twice_fails, C81_register_without_dot_fails, C81_star_removed_fails, C81_template_removed_fails, C81_unregister_property_fails, C82_long_name_fails, C83_freed_fails, C83_hidden_failure_fails, C83_lost, C83_number_unset_fails, C83_stale_fails, C83_unset_fails, C83_use_after_free_fails, C87_capitals_fails, C87_set_again_fails, C87_topic_again_fails, C87_type_fails, C88_inet6_fails, C88_long_path_fails, C88_memory, C88_overflow_fails, C88_port_fails, C88_refused, C92_null_fails, C93_cache_fails, C93_client_gone_fails, C93_close_client_gone_fails, C93_close_direct_fails, C93_close_fails, C93_connection_fails, C93_forever, C93_handler_publishes_fails, C93_handler_registers_fails, C93_handler_subscribes_fails, C93_handler_unsubscribes_fails, C93_interval_fails, C93_open_fails, C93_sync_handler_fails, C93_value_change_fails, C98_null_fails
* `Quot.sound`, `propext`: Buf.C02_writes_append_within_allocation, C03_exact_fill_fails, C07_filter_meaning, C07_integer_relations, C08_small_integers_exact, C08_text_equal_iff, C08_total_preorder_partial, C100_back_fails, C100_bound, C100_line, C100_log, C100_marked_fails, C100_marked_partial, C100_whole, C101_alive, C101_count, C101_late_fails, C101_name_fails, C101_row_names, C101_value, C101_wildcard_fails, C101_wildcard_partial, C102_object_partial, C102_properties_partial, C102_small_integers_fails, C103_quiet, C103_taken, C104_default_fails, C104_ended, C105_leak_fails, C106_one, C106_stuck_fails, C106_waits, C107_async_fails, C107_names_fails, C107_subscribe_fails, C108_defined_partial, C108_names_partial, C108_objects_defined, C108_public, C108_short_fails, C109_apart_partial, C109_long_fails, C110_cut_fails, C110_default, C110_exact, C110_initial, C110_nul_fails, C110_room, C110_word_partial, C111_unheard, C112_forged_fails, C112_full_fails, C112_number_fails, C112_order_fails, C112_provider_fails, C113_broken, C113_ignored_fails, C114_long_fails, C115_damaged_fails, C115_overflow_fails, C11_large_fails, C16_reply_to_router_fails, C18_router_topic_fails, C18_wildcard_query_fails, C19_other_client_fails, C19_router_topics_fails, C21_numbers_distinct_partial, C23_all_delivered, C23_discards_only_beyond_limit, C23_fifo, C24_library_ids_are_new_partial, C24_message_finds_its_listener_partial, C24_removed_listener_called_fails, C24_same_id_fails, C25_string_hash_fails, C27_items_distinct, C28_duplicate_answer, C28_duplicate_refused, C28_keys_distinct, C28_subscribe_adds, C28_unsubscribe_removes, C29_no_trace_partial, C29_provider_told_fails, C29_raw_data_fails, C30_number_fails, C32_crash_fails, C32_disconnect_partial, C32_filter_fails, C33_polling_freed_fails, C33_younger_fails, C34_again_fails, C34_cancel_fails, C34_close_fails, C34_lost_fails, C35_negative_fails, C35_outlasts_fails, C35_overflow_fails, C35_silence_partial, C36_bytes_fails, C36_datetime_fails, C38_legacy_fails, C38_three_fails, C39_hidden_fails, C39_wildcard_fails, C40_at_most_one_open, C40_request_refused_while_open, C42_elapsed_exact_partial, C42_long_span_fails, C43_again_fails, C43_list_fails, C43_same_fails, C43_shared_fails, C45_accepts_valid, C45_bad_padding_fails, C46_filter_field_fails, C47_one_character_fails, C49_answered_partial, C49_direct_fails, C49_nested_fails, C49_once_partial, C49_order_partial, C49_reply_partial, C49_undefined, C49_unregistered_fails, C51_long_timeout_fails, C53_filter_compare_equal_iff, C55_items_inside_message_partial, C58_long_name_fails, C58_validated_name_fails, C60_same_name_fails, C61_lost_fails, C61_new_id_fails, C61_stays, C62_dangling_fails, C64_shifted_fails, C65_second_fails, C66_bytes_fails, C67_bytes_fails, C67_string_fails, C71_deadline, C71_elapsed_partial, C72_destroy_fails, C72_spurious_fails, C72_stolen_fails, C74_drop_while_telling_fails, C74_good_link_dropped_fails, C74_names_lost_fails, C74_no_flags_fails, C74_no_socket_fails, C74_one_remakes_partial, C74_reconnect_defined_partial, C74_reconnect_restores_partial, C75_close_while_calling_fails, C75_stale_close_fails, C75_two_openers_fails, C76_close_while_used_fails, C76_intruder_fails, C76_reopen_bind_fails, C76_reopen_lost_fails, C76_request_answered_partial, C76_request_refused, C76_second_parameter_lost_fails, C77_defined_partial, C77_equal_iff_partial, C77_equal_without_children_partial, C77_equivalence_partial, C77_later_properties_fails, C77_nameless_fails, C77_not_an_order_fails, C77_null_inside_fails, C77_repeated_name_fails, C77_type_ignored_fails, C77_values_equal_iff_partial, C79_buffer, C79_double_back_fails, C79_not_finite, C79_reads, C79_single_back_fails, C80_empty_answer_fails, C80_error_texts, C80_error_texts_fails, C80_timeout_fails, C80_timeout_partial, C82_appended_fails, C82_dynamic_table_fails, C82_dynamic_table_hangs_fails, C82_expand, C82_failing_handler_fails, C82_instance_name_partial, C82_lone_star_fails, C82_missing_fails, C82_no_table, C82_template_fails, C83_complete_partial, C83_list_of_one, C83_nothing_partial, C83_query_partial, C84_depth, C84_dynamic_table_fails, C84_error_with_list_fails, C84_hidden_failure_fails, C84_long_name_fails, C84_nobody_fails, C84_not_found, C84_rows_lost, C84_smallest_depth_fails, C85_long_name_fails, C85_lost_answer_fails, C85_rollback_takes_others_fails, C85_tree_kept_fails, C86_refused, C86_unanswered, C87_null_fails, C87_truncated_fails, C88_unix_partial, C89_lost, C89_number_on_failure_fails, C89_unanswered_fails, C90_hang_fails, C90_undelivered_fails, C91_closed_fails, C91_damaged_fails, C91_unsent_fails, C92_copy_fails, C92_other_type_fails, C92_overwrite_fails, C93_defined_partial, C93_exclusion_partial, C93_no_deadlock_partial, C94_answer_later_fails, C94_direct_fails, C94_header_name_fails, C94_invoke_async_fails, C94_long_fails, C94_no_room_fails, C97_subscribed
* `Classical.choice`, `Quot.sound`, `propext`: Buf.C01_exactly_full_always_fails, Buf.C01_fields_read_back_partial, C03_encode_decode_partial, C03_exactly_full_always_fails, C03_long_payload_fails, C04_decode_hostile_partial, C05_filter_store_in_context, C05_filter_store_partial, C06_filter_wire_round_trip, C08_numeric_order, C09_null_object_fails, C09_object_round_trip_partial, C09_property_list_round_trip_partial, C09_value_round_trip_partial, C100_environment, C100_names, C101_branch, C101_names, C102_defined, C102_filter_partial, C102_integers, C102_value, C103_answers_partial, C103_once, C103_race_fails, C104_flow_partial, C104_only, C105_called, C105_defined_partial, C105_ended, C105_goes_on_partial, C105_kept_partial, C105_sent, C106_answers_partial, C107_number, C107_waits_partial, C109_meet_partial, C109_missing_fails, C109_nameless_fails, C109_once_partial, C109_poor, C109_refused, C109_same_socket, C109_second_fails, C109_short_fails, C109_tcp_fails, C109_thread_fails, C109_twins_fails, C10_event_round_trip, C111_all_or_nothing_partial, C111_interval_fails, C112_again_fails, C112_garbled_fails, C112_others, C112_told_partial, C113_crash_fails, C113_default, C113_file_partial, C113_nowhere_fails, C113_options_partial, C114_warning_partial, C115_cut, C115_whole, C11_body_unaffected_partial, C11_metadata_round_trip_partial, C12_header_injective, C12_header_round_trip, C13_accepts_iff, C13_decode_rejects, C13_decode_safe, C14_chunking_irrelevant, C15_each_message_once_partial, C15_empty_payload_fails, C15_prefix_preserved_partial, C16_answered_to_live_partial, C16_others_dropped_partial, C16_unroutable_answered_partial, C17_below_partial, C17_forwards_to_live_partial, C17_lookup_is_live_partial, C17_remove_exact_partial, C18_forgotten_not_routed_partial, C18_leave_exact_partial, C18_only_connected_partial, C19_own_names_partial, C20_free_name_accepted_partial, C20_removed_name_free, C20_taken_name_refused, C21_failures_explained_partial, C21_response_belongs_partial, C22_list_used_under_mutex_partial, C24_table_operations_partial, C25_default_map, C25_map_is_finite_map, C26_vector_contents, C26_vector_is_list, C27_list_is_sequence, C30_long_name_fails, C30_not_filter_fails, C30_restored_partial, C31_cut_fails, C31_cut_partial, C31_whole_partial, C33_exact_if_youngest, C33_row_deleted_partial, C34_at_most_once_partial, C34_attempts_partial, C34_not_early_partial, C34_settled_partial, C35_count_partial, C35_endless_partial, C35_ends_partial, C36_change_partial, C36_defined_partial, C36_kinds, C37_missing_fails, C37_restored_partial, C37_success, C38_failure_partial, C38_success_partial, C39_complete_partial, C39_one_provider_partial, C41_destroyed_partial, C41_safe_partial, C42_compare_is_order, C42_later_elapsed_partial, C42_later_exact, C42_later_not_before, C43_sequence, C43_set_property_partial, C43_set_value, C44_accepts, C44_blank_fails, C44_exact_partial, C45_encode_is_standard, C45_rejects_invalid_partial, C45_round_trip_partial, C46_nobody, C46_publish_defined, C46_publish_partial, C46_raw_answer_fails, C47_match_partial, C47_row_without_alias_fails, C48_declared_found_partial, C48_levels_partial, C48_only_declared_partial, C50_existing_fails, C50_get_handler_fails, C50_reply_partial, C50_request_partial, C51_finds_provider_partial, C51_waits_as_asked_partial, C51_waits_bounded, C52_lookup_by_id_partial, C52_lookup_by_name, C52_unknown_id_fails, C52_valid_iff_open, C54_receive_memory_safe_fails, C54_receive_memory_safe_partial, C55_hostile_value_fails, C55_truncated_value_fails, C56_destroyed_once_fails, C56_destroyed_once_partial, C57_handles_distinct, C57_open_partial, C58_short_names_parse_partial, C59_bad_diagnostic_fails, C59_bad_subscription_fails, C59_vague_subscription_partial, C60_components_partial, C60_elements_partial, C60_objects_partial, C61_row_added_partial, C62_covers_partial, C63_commit_last, C64_get_partial, C64_set_partial, C65_named_partial, C66_round_trip_partial, C66_text_exact, C67_buffer_partial, C68_delivery_partial, C68_exists_partial, C68_time_fails, C68_unsubscribed_partial, C69_all_or_nothing_partial, C70_max_partial, C70_order, C70_pending_partial, C70_seen_partial, C71_end_partial, C71_memory_partial, C71_result, C71_waits_partial, C72_count_partial, C72_destroy_partial, C72_no_lost_wakeup, C73_after_remove_all_fails, C73_called_for_own_topic_partial, C73_calls_in_order_partial, C73_has_listener_full_fails, C73_has_listener_partial, C73_no_undefined_partial, C73_sent_reaches_listener_partial, C74_link_comes_back_partial, C75_close_ends_links_partial, C75_duplicate_refused_partial, C75_lists_defined, C75_one_link_per_provider, C75_refused_close_fails, C75_request_sent_partial, C75_requests_take_the_link, C75_stale_handle_fails, C75_two_providers_hang_fails, C76_event_reaches_consumer_partial, C76_events_lost_before_registering_fails, C76_private_iff_open, C77_received_is_equal_partial, C78_bad_zone_fails, C78_buffer_respected, C78_read_in_range, C78_reads, C78_round_trip_partial, C78_writes_partial, C79_accepted, C79_double_back_partial, C79_double_exact, C79_double_text, C79_single_back_partial, C79_single_exact, C79_single_text, C80_error_partial, C80_error_string_fails, C80_later_error_code_fails, C80_later_error_partial, C80_later_partial, C80_legacy_partial, C80_no_answer, C80_no_method, C80_success_partial, C81_alias_partial, C81_call_partial, C81_declared_partial, C81_history_partial, C81_kind_partial, C81_listed_partial, C81_names_lead_back_partial, C81_number_partial, C81_rows_partial, C82_below, C82_faithful_partial, C82_names_partial, C82_partial_path_partial, C82_values_partial, C83_end_to_end_partial, C83_refused, C83_single, C84_all_partial, C84_complete_partial, C84_rows, C84_wanted, C85_accepted, C85_all_or_nothing_partial, C85_delivered, C85_refused, C85_registered, C85_taken, C85_unregistered, C86_code_100_fails, C86_commit_fails, C86_get_many_partial, C86_get_partial, C86_lost, C86_null_text_fails, C86_requester_fails, C86_set_impossible, C86_set_many_partial, C86_set_partial, C86_set_then_get, C86_typed, C87_absent, C87_binary_partial, C87_builds, C87_list_partial, C87_message_partial, C87_negative_fails, C87_number_partial, C87_text_partial, C87_topic_partial, C88_abort_fails, C88_interface_fails, C88_interface_partial, C88_meaning, C88_tcp_partial, C89_add_partial, C89_malformed_fails, C89_refused_partial, C89_remove_partial, C89_rows_partial, C90_awake, C90_ends_partial, C90_from_callback_fails, C90_no_new_callbacks, C90_not_stuck_partial, C90_quiet_partial, C90_released, C90_safe_partial, C90_waiting_fails, C91_delivery_partial, C91_exact_partial, C92_memory_partial, C92_pointer_partial, C92_self_fails, C92_values_partial, C93_all_end_partial, C93_progress_partial, C94_answered_partial, C94_chain_partial, C94_others, C94_replies_partial, C94_set_partial, C95_base64_fails, C95_get_ext_partial, C95_get_partial, C95_get_refused_fails, C95_not_confused, C95_nothing_else_partial, C95_set_earlier_fails, C95_set_partial, C95_set_refused_partial, C96_announced, C96_last_partial, C96_leak_fails, C96_released_partial, C96_restart_fails, C96_told, C96_unanswered_fails, C97_at_most_once, C97_closed_fails, C97_due, C97_leak_fails, C97_lost_fails, C97_mended, C97_name_fails, C97_nobody_else, C97_once_partial, C98_last, C98_others, C98_shared, C98_told, C99_cut_fails, C99_cut_number, C99_file, C99_own, C99_shared_fails, C99_stale_fails, C99_told
