{"id": "C01", "title": "Typed values written to an rbus buffer read back unchanged and in order", "statement": "If a program writes any sequence of fixed-size values (booleans, integers of 8..64 bits signed or unsigned, floats and doubles) to an rbus buffer and then reads the same sequence of types, every read succeeds and returns the value written, in order.", "quantifier": "every finite sequence of typed values, of any length and mixture, starting from an empty buffer", "why_tests_cant": "The outcome depends on how the total byte count relates to the internal allocation granularity; a test exercises a few totals, the claim is about all totals and all mixtures.", "anchors": ["src/rbus/rbus_buffer.c: rbusBuffer_Create, rbusBuffer_Write, rbusBuffer_Reserve, rbusBuffer_Read, rbusBuffer_Write*TLV, rbusBuffer_Read*"]}
{"id": "C02", "title": "Buffer writes never leave the allocation and never disturb earlier bytes", "statement": "After any sequence of writes of any lengths, the number of bytes written is at most the allocated size, the allocated size is at least 64 and a multiple of 64, and the bytes in the buffer are exactly the concatenation of the writes.", "quantifier": "every finite sequence of write lengths and contents", "why_tests_cant": "An off-by-one in growth only shows for particular length sequences; memory corruption may not be observable in a test run.", "anchors": ["src/rbus/rbus_buffer.c: rbusBuffer_Reserve, rbusBuffer_Write"]}
{"id": "C03", "title": "Value encode/decode round trip", "statement": "Encoding an rbus value of any scalar, date-time, string or bytes type to a buffer and decoding the buffer gives a value of the same type and content.", "quantifier": "every value of every encodable type, every string without embedded NUL, every byte array", "why_tests_cant": "The value domain is infinite and the failing cases (payload of 65536 bytes or more, encodings that exactly fill the allocation) are isolated points.", "anchors": ["src/rbus/rbus_value.c: rbusValue_Encode, rbusValue_Decode", "src/rbus/rbus_buffer.c: rbusBuffer_WriteTypeLengthValue"]}
{"id": "C04", "title": "Decoding a value from hostile bytes never touches memory outside the buffer", "statement": "For every byte content of a buffer and every read position, decoding a value either fails or reads only bytes inside the buffer's allocation.", "quantifier": "every buffer content, size and read position, including malformed input", "why_tests_cant": "Out-of-bounds reads depend on hostile bytes that tests do not enumerate and often have no visible effect.", "anchors": ["src/rbus/rbus_value.c: rbusValue_Decode, rbusValue_SetString"]}
{"id": "C05", "title": "Filters survive the persistent (buffer) encoding", "statement": "Encoding any event filter (relation, AND, OR, NOT, arbitrarily nested) to a buffer and decoding it yields the same filter.", "quantifier": "every filter expression tree built through the public constructors", "why_tests_cant": "Expression trees are unbounded; the failing operator only fails in combination with what follows in the buffer.", "anchors": ["src/rbus/rbus_filter.c: rbusFilter_Encode, rbusFilter_Decode"]}
{"id": "C06", "title": "Filters survive the wire (message) encoding", "statement": "Sending any well-formed filter from consumer to provider inside a message yields the same filter on the other side and leaves the rest of the message readable.", "quantifier": "every well-formed filter tree and every following message content", "why_tests_cant": "Unbounded recursion over trees; a misplaced field only shows when something follows the filter.", "anchors": ["src/rbus/rbus.c: rbusFilter_AppendToMessage, rbusFilter_InitFromMessage"]}
{"id": "C07", "title": "Filter evaluation is the boolean reading of the expression", "statement": "Applying a filter to a value returns exactly the truth value of the boolean expression the filter denotes, where a relation compares the value with the filter's operand by the library's ordering; in particular >= is the negation of <, <= of >, != of ==, and AND/OR/NOT obey De Morgan.", "quantifier": "every filter tree and every value", "why_tests_cant": "The expression space is infinite; equivalences quantify over pairs of trees.", "anchors": ["src/rbus/rbus_filter.c: rbusFilter_Apply, rbusFilter_RelationApply, rbusFilter_LogicApply"]}
{"id": "C08", "title": "Value comparison is a total order on comparable values", "statement": "Comparing values is reflexive, antisymmetric (swapping the arguments negates the sign) and transitive, and returns zero exactly when the two values are equal.", "quantifier": "every pair and triple of values of every type", "why_tests_cant": "Order laws quantify over triples; precision loss for large 64-bit integers and date-times only shows on isolated values.", "anchors": ["src/rbus/rbus_value.c: rbusValue_Compare"]}
{"id": "C09", "title": "Values, properties and objects survive the wire encoding", "statement": "A value, property list or object (with nested children and nested object/property values) appended to a message and read back is the same value, property list or object, and reading stops exactly at the end of the encoding.", "quantifier": "every finite nested value/property/object structure", "why_tests_cant": "Nested structures are unbounded and self-delimiting encodings fail only when something follows.", "anchors": ["src/rbus/rbus.c: rbusValue_appendToMessage, rbusValue_initFromMessage, rbusPropertyList_appendToMessage, rbusPropertyList_initFromMessage, rbusObject_appendToMessage, rbusObject_initFromMessage", "src/core/rbuscore_message.c"]}
{"id": "C10", "title": "Event messages survive the wire encoding", "statement": "An event with its name, type, data, filter, interval, duration and component id is decoded by the consumer to exactly what the provider sent.", "quantifier": "every event, filter and 32-bit interval/duration/component id", "why_tests_cant": "Values above 2^31 take a different path through signed packing; tests use small intervals.", "anchors": ["src/rbus/rbus.c: rbusEventData_appendToMessage, rbusEventData_updateFromMessage"]}
{"id": "C11", "title": "Message metadata can always be found again", "statement": "After a payload of any content has been written and the method name and trace strings appended as metadata, the receiver reads back exactly these strings, and reading the payload afterwards is unaffected.", "quantifier": "every payload and every metadata strings", "why_tests_cant": "The metadata locator is a patched trailing integer whose encoding length depends on the payload size.", "anchors": ["src/core/rbuscore_message.c: rbusMessage_BeginMetaSectionWrite, rbusMessage_EndMetaSectionWrite, rbusMessage_BeginMetaSectionRead, rbusMessage_EndMetaSectionRead", "src/core/rbuscore.c: _rbusMessage_SetMetaInfo, _rbusMessage_GetMetaInfo"]}
{"id": "C12", "title": "Message header encode/decode round trip", "statement": "Decoding an encoded message header gives back the sequence number, flags, control data, payload length, topic and reply topic that were encoded, and the encoded size equals the header length field.", "quantifier": "every header with topic and reply topic shorter than the limit", "why_tests_cant": "Field order and endianness must agree for all 2^32 values of four fields and all topic strings.", "anchors": ["src/rtmessage/rtMessageHeader.c: rtMessageHeader_Encode, rtMessageHeader_Decode"]}
{"id": "C13", "title": "Header decoding rejects over-long topics and bad markers", "statement": "Decoding arbitrary bytes as a header succeeds only if both markers are present and both topic lengths are below the limit; then no topic buffer is overrun.", "quantifier": "every byte string offered as a header", "why_tests_cant": "Hostile length fields range over 2^32 values.", "anchors": ["src/rtmessage/rtMessageHeader.c: rtMessageHeader_Decode"]}
{"id": "C14", "title": "Router framing does not depend on how the stream is cut into reads", "statement": "For the same byte stream from a client, the router dispatches the same sequence of messages whatever the sizes of the individual socket reads.", "quantifier": "every byte stream and every way of cutting it into reads", "why_tests_cant": "The number of ways to cut a stream is exponential; tests on a local socket see one or two cuts.", "anchors": ["src/rtmessage/rtrouted.c: rtConnectedClient_Read, rtConnectedClient_Reset"]}
{"id": "C15", "title": "Router dispatches every well-formed message exactly once, in order", "statement": "If a client sends the encodings of a list of messages, the router dispatches exactly these messages, each once, in order, and keeps the connection open.", "quantifier": "every list of well-formed messages, each with any payload", "why_tests_cant": "Lists are unbounded, and the failing member (empty payload) ends the connection only when followed by a read.", "anchors": ["src/rtmessage/rtrouted.c: rtConnectedClient_Read, rtRouted_DispatchMessageFromClient"]}
{"id": "C16", "title": "An unroutable request is answered exactly once and never loops", "statement": "When a request's topic has no route, the router sends exactly one response flagged undeliverable, carrying the request's sequence number, to the requester's reply topic, and dispatch terminates even if that reply topic has no route either.", "quantifier": "every routing state, every request", "why_tests_cant": "The redispatch recursion must terminate for all routing states, including those where the reply topic is unroutable.", "anchors": ["src/rtmessage/rtrouted.c: rtRouted_DispatchMessageFromClient, rtRouter_DispatchMessageFromClient"]}
{"id": "C17", "title": "A registered topic reaches its owner and only its owner", "statement": "After any history of registrations and removals, looking up a topic yields exactly the routes whose registration of this topic is still in force.", "quantifier": "every finite history of topic registrations, removals and client departures, every topic", "why_tests_cant": "Histories are unbounded; stale routes appear only after particular removal orders.", "anchors": ["src/rtmessage/rtRoutingTree.c: rtRoutingTree_AddTopicRoute, rtRoutingTree_GetTopicRoutes, rtRoutingTree_RemoveTopic, rtRoutingTree_RemoveRoute"]}
{"id": "C18", "title": "Nothing is routed to a departed client", "statement": "Once a client connection has been destroyed, no later message is delivered to it, whatever its registrations were.", "quantifier": "every history before and after the departure", "why_tests_cant": "Dangling routes depend on the combination of registrations made before the departure.", "anchors": ["src/rtmessage/rtrouted.c: rtRouted_ClearClientRoutes, rtConnectedClient_Destroy", "src/rtmessage/rtRoutingTree.c: rtRoutingTree_RemoveRoute"]}
{"id": "C19", "title": "A client cannot remove another client's registrations", "statement": "An unsubscribe message sent by one client never changes what is routed to another client.", "quantifier": "every routing state, every pair of clients, every expression", "why_tests_cant": "Requires two adversarially related clients; tests use cooperating ones.", "anchors": ["src/rtmessage/rtrouted.c: rtRouted_OnMessageSubscribe"]}
{"id": "C20", "title": "Duplicate element names are refused while the first owner is alive", "statement": "If an element name is registered by one provider, a second registration of the same name by any provider is refused with a duplicate error until the first is removed; after removal it can be registered again.", "quantifier": "every history of registrations and removals of names", "why_tests_cant": "Depends on history: emptied entries must not be taken for live ones.", "anchors": ["src/rtmessage/rtRoutingTree.c: rtRoutingTree_AddTopicRoute", "src/rtmessage/rtrouted.c: rtRouted_AddAlias"]}
{"id": "C21", "title": "A response is delivered to the request it answers", "statement": "Whatever the interleaving of requests, responses, timeouts and late responses on one connection, a request that returns success returns a response whose sequence number is that request's, and each response is returned by at most one request.", "quantifier": "every interleaving of any number of concurrent requests with any arrival order of responses, including late and duplicate ones", "why_tests_cant": "Schedules are unbounded and rarely exercised; misdelivery needs specific timing.", "anchors": ["src/rtmessage/rtConnection.c: rtConnection_SendRequestInternal, rtConnection_Read"]}
{"id": "C22", "title": "Mutual exclusion of the pending-request table", "statement": "No thread modifies or reads the pending request table, or unlocks its mutex, without holding the mutex.", "quantifier": "every schedule of requester and reader threads, including timeouts", "why_tests_cant": "A data race on the timeout path needs a response arriving within nanoseconds of the timeout.", "anchors": ["src/rtmessage/rtConnection.c: rtConnection_SendRequestInternal"]}
{"id": "C23", "title": "Callback messages are delivered in arrival order and at most once", "statement": "Messages accepted for callback delivery are handed to listeners in the order they arrived, each at most once, and a message is discarded only if more than the configured number are waiting.", "quantifier": "every interleaving of arrivals and deliveries", "why_tests_cant": "Requires all interleavings of reader and callback thread.", "anchors": ["src/rtmessage/rtConnection.c: rtConnection_Read, rtConnection_CallbackThread"]}
{"id": "C24", "title": "A message reaches the listener whose subscription the router named", "statement": "Through any history of adding and removing listeners, a delivered message invokes the callback of the listener registered under the subscription id in the message, and no other; ids in use are distinct; at most the fixed number of listeners exist.", "quantifier": "every history of add/remove and every message", "why_tests_cant": "Slot reuse after removals makes stale-callback bugs history dependent.", "anchors": ["src/rtmessage/rtConnection.c: rtConnection_AddListenerWithId, rtConnection_RemoveListener, rtConnection_RemoveListenerWithId, rtConnection_CallbackThread"]}
{"id": "C25", "title": "Hash map behaves as a finite map", "statement": "After any history of set, remove and get, get returns the most recently set and not since removed value, contains agrees with get, and size is the number of distinct live keys - across growth and shrink of the table.", "quantifier": "every history of operations, every hash distribution", "why_tests_cant": "Rehash errors require specific key/hash distributions at growth and shrink points.", "anchors": ["src/rtmessage/rtHashMap.c: rtHashMap_Set, rtHashMap_Get, rtHashMap_Remove, rtHashMap_Contains, rtHashMap_Resize"]}
{"id": "C26", "title": "Vector behaves as a list", "statement": "After any history of push-back and remove, the vector holds the pushed items in order without the removed ones, and never writes outside its capacity.", "quantifier": "every history of operations", "why_tests_cant": "Growth boundary conditions only matter at multiples of the block size.", "anchors": ["src/rtmessage/rtVector.c: rtVector_PushBack, rtVector_RemoveItem, rtVector_At"]}
{"id": "C27", "title": "Linked list behaves as a list, forwards and backwards", "statement": "After any history of insertions and removals, walking the list forward yields the reference sequence, walking backward yields its reverse, the size is its length, and recycled items are never still in the list.", "quantifier": "every history of operations including item reuse", "why_tests_cant": "Pointer relinking errors at ends and after recycling show only for particular histories.", "anchors": ["src/rtmessage/rtList.c"]}
{"id": "C28", "title": "At most one subscription per key", "statement": "In a provider's subscription registry no two live subscriptions share listener, component id, event name, filter, interval, duration and rawness; subscribing twice is refused as already existing; unsubscribing removes exactly the matching subscription.", "quantifier": "every history of subscribe and unsubscribe requests", "why_tests_cant": "Needs all histories; duplicates would only double events.", "anchors": ["src/rbus/rbus_subscriptions.c: rbusSubscriptions_addSubscription, rbusSubscriptions_getSubscription, rbusSubscriptions_removeSubscription", "src/rbus/rbus.c: subscribeHandlerImpl"]}
{"id": "C29", "title": "A refused subscription leaves no trace", "statement": "If a subscribe request is answered with an error, the provider's registry is unchanged: no event is ever delivered because of it and a corrected retry can succeed.", "quantifier": "every registry state and every subscribe request", "why_tests_cant": "Error paths multiply with request attributes.", "anchors": ["src/rbus/rbus.c: subscribeHandlerImpl"]}
{"id": "C30", "title": "Subscriptions survive a provider restart", "statement": "Saving the registry and loading it in a new process restores exactly the subscriptions whose listener still runs, with all attributes.", "quantifier": "every registry content and every set of live listeners", "why_tests_cant": "Content (names, filters, counts) is unbounded; the file format is self-delimiting binary.", "anchors": ["src/rbus/rbus_subscriptions.c: rbusSubscriptions_saveCache, rbusSubscriptions_loadCache"]}
{"id": "C31", "title": "Loading a damaged subscription cache is harmless", "statement": "Whatever bytes the cache file holds, loading it only reads inside the file image and restores only records completely present in it.", "quantifier": "every file content, every truncation point (crash during save)", "why_tests_cant": "Crash points and corruptions cannot be enumerated.", "anchors": ["src/rbus/rbus_subscriptions.c: rbusSubscriptions_loadCache"]}
{"id": "C32", "title": "A disconnected consumer's subscriptions are dropped", "statement": "When a consumer's connection is lost, all of its subscriptions at a provider are removed, and nobody else's.", "quantifier": "every registry and every listener", "why_tests_cant": "Only some attribute combinations leak.", "anchors": ["src/rbus/rbus_subscriptions.c: rbusSubscriptions_handleClientDisconnect"]}
{"id": "C33", "title": "Deleting an element removes only its own subscriptions", "statement": "When a table row is deleted, exactly the subscriptions whose event name addresses an element below that row are removed.", "quantifier": "every registry and every deleted element", "why_tests_cant": "State left over from one loop iteration to the next matters only with particular orders of subscriptions.", "anchors": ["src/rbus/rbus_subscriptions.c: rbusSubscriptions_onElementDeleted"]}
{"id": "C34", "title": "An asynchronous subscribe completes exactly once", "statement": "Every asynchronous subscribe request leads to exactly one completion callback, as soon as a provider answers or else after the timeout, with retry delays that double from one second up to the cap and never overshoot the timeout.", "quantifier": "every sequence of provider answers and every timing", "why_tests_cant": "Timing sequences are unbounded.", "anchors": ["src/rbus/rbus_asyncsubscribe.c: rbusAsyncSubscribe_SendSubscriptionRequests, rbusAsyncSubscribe_DetermineNextSendTime"]}
{"id": "C35", "title": "An interval subscription publishes the promised number of times", "statement": "An interval subscription with a duration publishes one event per interval until duration/interval events have been sent, then exactly one duration-complete notice, and then nothing; with no duration it never stops by itself.", "quantifier": "every interval, duration and every pattern of failing reads", "why_tests_cant": "Counts and failure patterns are unbounded.", "anchors": ["src/rbus/rbus_intervalsubscription.c: PublishingThreadFunc"]}
{"id": "C36", "title": "Value-change detection reports every change once", "statement": "With periodic polling, a value-change event is published exactly at polls where the value differs from the value at the previous successful poll, carrying that previous and the new value.", "quantifier": "every sequence of polled values", "why_tests_cant": "Sequences are unbounded; equal-comparing but different values are missed.", "anchors": ["src/rbus/rbus_valuechange.c: rbusValueChange_pollingThreadFunc"]}
{"id": "C37", "title": "A failed multi-parameter set on one provider changes nothing", "statement": "When a multi-parameter set fails at a provider, every parameter it owns has the value it had before the request.", "quantifier": "every parameter list (including repeated names), every point of failure, every failure kind", "why_tests_cant": "Failure position, kind and repetition combine without bound.", "anchors": ["src/rbus/rbus.c: _set_callback_handler"]}
{"id": "C38", "title": "A multi-parameter set spanning providers is all-or-nothing", "statement": "If a multi-parameter set reports success, every parameter was set; if it reports failure, every parameter on every provider has its old value.", "quantifier": "every assignment of parameters to providers, every pattern of provider failures and lost replies", "why_tests_cant": "Needs combinations of providers and failures.", "anchors": ["src/rbus/rbus.c: _setMultiInternal"]}
{"id": "C39", "title": "A multi-parameter get returns all values or an error", "statement": "If a multi-parameter get reports success, the result holds one value per requested parameter.", "quantifier": "every assignment of parameters to providers and every pattern of provider failures", "why_tests_cant": "Needs combinations of providers and failures.", "anchors": ["src/rbus/rbus.c: rbus_getExt"]}
{"id": "C40", "title": "At most one session is open, and only its holder can close it", "statement": "At any time at most one session is open; a request while one is open is refused; closing with an id that is not the id of the open session does not close it, in particular the id of an already closed session never closes a newer one.", "quantifier": "every history of create/close requests from any number of clients", "why_tests_cant": "Id reuse needs a particular history of several clients.", "anchors": ["src/session_manager/session_manager.c: request_session_id, end_session"]}
{"id": "C41", "title": "Reference counting: an object is destroyed exactly when its last owner releases it", "statement": "For any history of retain/release and of linking values, properties and objects into each other in which each owner releases once, nothing is used after destruction and everything is destroyed when the last owner releases.", "quantifier": "every history of retain, release and linking operations", "why_tests_cant": "Use after free depends on histories; tests may not notice it.", "anchors": ["src/rbus/rbus_value.c: rbusValue_Retain, rbusValue_Release", "src/rbus/rbus_property.c: rbusProperty_SetNext, rbusProperty_Destroy", "src/rtmessage/rtRetainable.c"]}
{"id": "C42", "title": "Time arithmetic is exact", "statement": "Adding m milliseconds to a time and then asking for the elapsed milliseconds gives m; comparison of times is a total order agreeing with elapsed time.", "quantifier": "every normalised time and every millisecond count", "why_tests_cant": "Carry and borrow cases depend on nanosecond values.", "anchors": ["src/rtmessage/rtTime.c: rtTime_Later, rtTime_Elapsed, rtTime_Compare"]}
{"id": "C43", "title": "Object properties behave as an ordered map", "statement": "Setting a property by name and then getting that name returns the new value, all other names keep their values and their order, and a name appears at most once.", "quantifier": "every object and every sequence of sets", "why_tests_cant": "Sequences and orders are unbounded.", "anchors": ["src/rbus/rbus_object.c: rbusObject_SetProperty, rbusObject_GetProperty, rbusObject_SetPropertyValue"]}
{"id": "C44", "title": "Parsing numbers from text never silently changes them", "statement": "Setting an integer value from a string either fails or stores exactly the number the string denotes.", "quantifier": "every string and every integer type", "why_tests_cant": "Strings are unbounded; wraparound shows only for particular forms.", "anchors": ["src/rbus/rbus_value.c: rbusValue_SetFromString"]}
{"id": "C45", "title": "Base64 round trip", "statement": "Decoding the base64 encoding of any byte string returns that byte string; decoding rejects every string that is not valid base64.", "quantifier": "every byte string", "why_tests_cant": "Infinite domain; padding cases depend on length mod 3.", "anchors": ["src/rtmessage/rtBase64.c: rtBase64_encode, rtBase64_decode"]}
{"id": "C46", "title": "An event reaches exactly the subscribers entitled to it", "statement": "Publishing a value-change event sends it once to every subscriber without a filter, and to a subscriber with a filter exactly when the filter's result differs between old and new value, with the 'filter' field telling the new result; unfiltered subscribers never see a 'filter' field.", "quantifier": "every subscription list and every old/new value", "why_tests_cant": "Interaction between subscribers depends on list order.", "anchors": ["src/rbus/rbus.c: rbusEvent_Publish"]}
{"id": "C47", "title": "Wildcard event names match exactly the intended elements", "statement": "An event name with wildcards or aliases matches an element instance exactly when they have the same number of path parts and every part is equal, is a wildcard at a table row, or is the row's alias.", "quantifier": "every name and element path", "why_tests_cant": "Uninitialised state carries over between parts of a path.", "anchors": ["src/rbus/rbus_tokenchain.c: TokenChain_create, TokenChain_match"]}
{"id": "C48", "title": "A registered element can be retrieved under its name, and removal removes it only", "statement": "After inserting elements, each inserted name is found and a name never inserted is not; inserting one element never makes another unreachable.", "quantifier": "every set and order of registered element names", "why_tests_cant": "Orders and shapes are unbounded.", "anchors": ["src/rbus/rbus_element.c: insertElement, retrieveElement, removeElement"]}
{"id": "C49", "title": "A provider answers every remote call at most once, in arrival order", "statement": "For every incoming call the provider's callback is invoked once and at most one response is sent; calls that arrive while a callback is running are served in arrival order after it.", "quantifier": "every nesting and arrival pattern of calls", "why_tests_cant": "Re-entrancy depth is unbounded.", "anchors": ["src/core/rbuscore.c: onMessage, dispatch_method_call"]}
{"id": "C50", "title": "Subscriber and provider agree on the subscribe reply", "statement": "For every outcome on the provider's side, the consumer interprets the reply as the provider meant it: it sees an initial value exactly if one was sent, and the subscription id that the provider assigned.", "quantifier": "every subscribe request and provider outcome", "why_tests_cant": "The reply's layout varies with outcomes of user handlers.", "anchors": ["src/rbus/rbus.c: _subscribe_callback_handler, rbusEvent_SubscribeWithRetries"]}
{"id": "C51", "title": "A synchronous subscribe terminates and waits no longer than asked", "statement": "With no provider present, a synchronous subscribe performs finitely many attempts whose waits sum to at most the timeout, doubling up to the cap.", "quantifier": "every timeout", "why_tests_cant": "All timeouts.", "anchors": ["src/rbus/rbus.c: rbusEvent_SubscribeWithRetries"]}
{"id": "C52", "title": "Handle lookup returns the handle asked for", "statement": "Looking up a handle by component id or by name returns the open handle with this id or name, or nothing if there is none.", "quantifier": "every history of open and close", "why_tests_cant": "Depends on which handles are open.", "anchors": ["src/rbus/rbus_handle.c: rbusHandleList_GetByComponentID, rbusHandleList_GetByName"]}
{"id": "C53", "title": "Comparing filters tells equal filters from different ones", "statement": "Two filters compare equal exactly if they have the same shape and operators and their values compare equal, so unsubscribing or re-subscribing with an equal filter finds the subscription made with it.", "quantifier": "every pair of filter trees", "why_tests_cant": "Filter trees are unbounded in depth.", "anchors": ["src/rbus/rbus_filter.c: rbusFilter_Compare"]}
{"id": "C54", "title": "No client can make the router write outside its receive buffer", "statement": "For every byte stream a client sends, however received, the router's reads stay within the receive buffer of that client.", "quantifier": "every byte stream and every pattern of partial reads", "why_tests_cant": "Hostile streams and interleavings of partial reads are unbounded.", "anchors": ["src/rtmessage/rtrouted.c: rtConnectedClient_Read"]}
{"id": "C55", "title": "Reading a received message cannot corrupt the receiver's memory", "statement": "For every sequence of bytes received as a message, reading values, property lists and events from it stays within the message and within the values being filled.", "quantifier": "every byte sequence received", "why_tests_cant": "Hostile messages are unbounded; tests use well-formed ones.", "anchors": ["src/core/rbuscore_message.c: rbusMessage_Get*", "src/rbus/rbus.c: rbusValue_initFromMessage, rbusPropertyList_initFromMessage", "src/rbus/rbus_value.c: rbusValue_SetTLV"]}
{"id": "C56", "title": "Destroying a list destroys what is in it, once", "statement": "Destroying a linked list with a destroyer passes the data of every item in the list to the destroyer exactly once, and nothing that was removed from the list before.", "quantifier": "every history of insertions and removals, with and without a destroyer", "why_tests_cant": "Depends on which removed items were recycled since, over histories of any length.", "anchors": ["src/rtmessage/rtList.c: rtList_Destroy, rtList_RemoveItem", "src/rbus/rbus_subscriptions.c: rbusSubscriptions_resubscribeElementCache, rbusSubscriptions_destroy"]}
{"id": "C57", "title": "One open handle per component name", "statement": "Opening a component name that is already open closes the previous handle first; at most sixteen handles are open; no two open handles share a name or a component id; a failed open leaves the process in a usable state.", "quantifier": "every history of open and close, with any failures of the broker connection or registration", "why_tests_cant": "The failing path after a re-open needs the broker to disappear between two calls of one test.", "anchors": ["src/rbus/rbus.c: rbus_open, rbus_close", "src/rbus/rbus_handle.c"]}
{"id": "C58", "title": "The router parses topic names within its buffers", "statement": "Whatever topic a client sends a message to or registers, the router splits it into components without writing outside its fixed arrays.", "quantifier": "every text of at most 255 bytes, every routing state", "why_tests_cant": "Overflow depends on the number of components; tests use ordinary element names.", "anchors": ["src/rtmessage/rtRoutingTree.c: tokenizeExpression, validateExpression, rtRoutingTree_GetTopicRoutes"]}
{"id": "C59", "title": "A malformed message cannot stop the router", "statement": "A message to one of the router's own topics whose payload cannot be parsed, or lacks what is asked for, is refused: nothing changes, a requester is told, and the router goes on serving.", "quantifier": "every routing state, every payload", "why_tests_cant": "Payloads are unbounded and the harm is to every other process on the bus, not to the sender.", "anchors": ["src/rtmessage/rtrouted.c: rtRouted_OnMessageSubscribe, rtRouted_OnMessageDiagnostics", "src/rtmessage/rtMessage.c: rtMessage_FromBytes, rtMessage_Release"]}
{"id": "C60", "title": "Discovery answers match what is registered", "statement": "Asked for the components, the elements of a component or the components of an element, the router answers with exactly those registered at that moment.", "quantifier": "every history of registrations, removals and departures, every query", "why_tests_cant": "Histories are unbounded; stale answers appear only after particular orders of removal.", "anchors": ["src/rtmessage/rtrouted.c: rtRouted_OnMessageDiscoverRegisteredComponents, rtRouted_OnMessageDiscoverObjectElements, rtRouted_OnMessageDiscoverElementObjects"]}
{"id": "C61", "title": "A subscription stays until it is ended", "statement": "Once a subscribe request has succeeded, the subscription stays in force under the same id until it is unsubscribed, its consumer's connection is lost, its duration is over, or the row it addresses is deleted; nothing others do, and no row added, ends or replaces it.", "quantifier": "every sequence of requests, lost connections and rows added or deleted, and every answer of the provider's handlers", "why_tests_cant": "It takes particular row numbers and refusals at particular moments.", "anchors": ["src/rbus/rbus_subscriptions.c: rbusSubscriptions_resubscribeRowElementCache, rbusSubscriptions_removeSubscription", "src/rbus/rbus.c: registerTableRow, subscribeHandlerImpl"]}
{"id": "C62", "title": "A subscription covers what its name addresses, now and later", "statement": "At any time a subscription with or without wildcards covers exactly those existing elements that its event name addresses, including the elements of rows added after the subscription was made and excluding those of deleted rows.", "quantifier": "every data model, every event name and every sequence of requests and rows added or deleted", "why_tests_cant": "Histories interleaving rows and subscriptions are unbounded.", "anchors": ["src/rbus/rbus_subscriptions.c: rbusSubscriptions_onTableRowAdded, rbusSubscriptions_onTableRowRemoved, rbusSubscriptions_onSubscriptionCreated", "src/rbus/rbus_element.c: instantiateTableRow, deleteTableRow"]}
{"id": "C63", "title": "A multi-parameter set commits once, with its last parameter", "statement": "When a provider carries out a multi-parameter set, its set handlers are called in the order of the request, once for each parameter with that parameter's value, and only the last of these calls asks to commit, and only if the request does.", "quantifier": "every request and every provider", "why_tests_cant": "Tests look at a few requests of fixed length.", "anchors": ["src/rbus/rbus.c: _set_callback_handler"]}
{"id": "C64", "title": "A provider is only asked about its own parameters", "statement": "During a multi-parameter set or get, with whatever rollbacks it brings, a provider's handlers are called only for parameters the router attributes to that provider.", "quantifier": "every assignment of parameters to providers, including none or several, every pattern of failures and lost calls", "why_tests_cant": "Needs combinations of routes and failures.", "anchors": ["src/rbus/rbus.c: _setMultiInternal, rbus_getExt, rbus_discoverComponentName", "src/core/rbuscore.c: rbus_discoverElementsObjects", "src/rtmessage/rtrouted.c: rtRouted_OnMessageDiscoverElementObjects"]}
{"id": "C65", "title": "A failed multi-parameter set names the parameter that failed", "statement": "When a multi-parameter set that was asked for the failed parameter's name fails at a provider, the name handed back is that of a parameter of the request which is missing, not writable or whose set handler refused, and the code is the matching one.", "quantifier": "every request, every assignment of parameters to providers, every failure", "why_tests_cant": "The position of the failure and the assignment to providers combine without bound.", "anchors": ["src/rbus/rbus.c: rbus_setMultiExt, _setMultiInternal, _set_callback_handler"]}
{"id": "C66", "title": "A value written as text and read back is the same", "statement": "Converting a value to text and setting a value of the same type from that text gives back the same value.", "quantifier": "every value of every type that has a text form", "why_tests_cant": "Value spaces are too large to enumerate, and the two conversions are written independently.", "anchors": ["src/rbus/rbus_value.c: rbusValue_ToString, rbusValue_SetFromString"]}
{"id": "C67", "title": "Converting to text respects the caller's buffer", "statement": "Converting a value into a buffer of a given size writes only within it and leaves a terminated text there: the value's text, cut to what fits.", "quantifier": "every value and every buffer size", "why_tests_cant": "Overruns depend on the combination of length and size and need not be noticed when they happen.", "anchors": ["src/rbus/rbus_value.c: rbusValue_ToString"]}
{"id": "C68", "title": "Each event goes to the handler of its own subscription", "statement": "On the consumer's side, an event is handed to the handler given with the live subscription of the same name, filter, interval and duration and to no other; after the subscription is ended, by its user or because its duration is over, no handler is called for it; subscribing to what is subscribed is answered with an error saying so.", "quantifier": "every sequence of synchronous and asynchronous subscriptions, unsubscriptions and events on a handle, and every outcome of the requests to providers", "why_tests_cant": "Depends on interleavings of calls, events and providers that come and go.", "anchors": ["src/rbus/rbus.c: rbusEvent_SubscribeWithRetries, _master_event_callback_handler, _subscribe_async_callback_handler, rbusEvent_UnsubscribeEx, rbusEventSubscription_find"]}
{"id": "C69", "title": "Subscribing to several events is all or nothing", "statement": "When subscribing to several events with one call fails, every event goes to the handler it went to before the call, or to none; when it succeeds, every one of the events goes to the handler given for it.", "quantifier": "every list of subscriptions, every position at which one is refused, every earlier history of the handle", "why_tests_cant": "The number of subscriptions, the position of the failure and the earlier history combine without bound.", "anchors": ["src/rbus/rbus.c: rbusEvent_SubscribeEx, rbusEvent_SubscribeExRawData, rbusEvent_UnsubscribeEx"]}
{"id": "C70", "title": "A task given to the thread pool is run once, in order", "statement": "Tasks given to a thread pool are started in the order in which they were given, each once; every one is started, by at most as many threads as the pool was made for, and waits for another task only when that many are running, which the caller is told.", "quantifier": "every sequence of tasks, every number of threads, every interleaving of the caller with the workers and every time at which a worker stops waiting", "why_tests_cant": "Interleavings with the expiry of idle workers cannot be enumerated.", "anchors": ["src/rtmessage/rtThreadPool.c: rtThreadPool_RunTask, rtThread_WorkerThreadFunc, rtThread_DequeTask"]}
{"id": "C71", "title": "Destroying a thread pool", "statement": "Destroying a thread pool with a negative time waits until every task has been run, with another time as long as that at most; the result says whether tasks were cancelled; no task starts afterwards; the pool's memory is used by no thread after it is freed, and is freed once, when the last thread has ended.", "quantifier": "every state of the pool and its workers at the time of the call, every interleaving after it", "why_tests_cant": "Needs all interleavings of the workers' ends with the destroying thread.", "anchors": ["src/rtmessage/rtThreadPool.c: rtThreadPool_Destroy, rtThreadPool_StopAllThread, rtThreadPool_TryRealDestroy, timeGetElapsed"]}
{"id": "C72", "title": "A semaphore lets as many waits succeed as there were posts", "statement": "Never more waits on a semaphore succeed than it was posted; a thread does not wait for ever when a post is left for it; a semaphore may be destroyed by the thread whose wait has succeeded.", "quantifier": "every number of threads, every interleaving of posts, waits, timeouts and wake-ups without cause", "why_tests_cant": "The windows are a few instructions wide and wake-ups without cause cannot be provoked.", "anchors": ["src/rtmessage/rtSemaphore.c: rtSemaphore_Post, rtSemaphore_TimedWait, rtSemaphore_Destroy"]}
{"id": "C73", "title": "A message handler gets the messages on its topic and no others", "statement": "A handler added for a topic is called, with the user data given for it, for every message on that topic, in order, until it is removed, and for no message on another topic. Removing a listener affects no other one. Asking whether there is a listener on a topic says yes from when adding one succeeded until it is removed.", "quantifier": "all sequences of adding, removing and asking, messages arriving at any time on both kinds of connection, every interleaving with the threads that call handlers", "why_tests_cant": "A test uses one or two listeners; what goes wrong depends on ids, topics and messages that are under way.", "anchors": ["src/rbus/rbus_message.c: rbusMessage_AddListener, rbusMessage_RemoveListener, rbusMessage_RemoveAllListeners, rbusMessage_HasListener, rbusMessage_AddPrivateListener, rbusMessage_RemovePrivateListener"]}
{"id": "C74", "title": "After the link to the router is lost and made again, every listener still gets its messages", "statement": "When the link to the router is lost, it is made again by one of the application's threads, and afterwards the router again sends the application the messages on every topic it listens for, and on no other: also for listeners added or removed by other threads while the link was down or being made again. Threads that send meanwhile wait, and go on when the link is there.", "quantifier": "all interleavings of any number of threads adding and removing listeners and sending, with the reader thread; the link lost any number of times; every outcome of connecting", "why_tests_cant": "A test loses the link once, at rest; what goes wrong depends on the moment the link is lost, on who notices first and on what other threads do just then.", "anchors": ["src/rtmessage/rtConnection.c: rtConnection_ConnectAndRegister, rtConnection_SendMessageDirect, rtConnection_ReaderThread, rtConnection_AddListenerWithId, rtConnection_RemoveListenerWithId"]}
{"id": "C75", "title": "A private connection lasts as long as one of its parameters is open, and requests take it", "statement": "A consumer that opens parameters for private use has one connection to each provider of an open parameter, and none to others: however often and from however many threads it opens and closes, and whichever providers refuse or go. Requests about an open parameter go over that connection, all others through the router; opening a parameter twice is refused; a closed parameter can be opened again; rbus_close ends all private connections.", "quantifier": "all interleavings of any number of threads opening, closing and making requests; every answer of a provider; providers going at any time", "why_tests_cant": "Which connections exist depends on the whole history of opens, closes and providers that go; use of a freed connection depends on the interleaving, and a call that never returns on there being two providers.", "anchors": ["src/core/rbuscore.c: rbuscore_createPrivateConnection, rbuscore_openPrivateConnectionToProvider, rbuscore_closePrivateConnection, rbuscore_terminatePrivateConnection, rbuscore_FindClientPrivateConnection, _rbuscore_destroy_clientPrivate_connections", "src/rbus/rbus.c: rbus_openDirect, rbus_closeDirect, rbus_get"]}
{"id": "C76", "title": "A provider serves a parameter privately from opening until closing", "statement": "From the moment a provider has agreed to open a parameter for a consumer until the consumer closes it or goes, events about it for that consumer go over the private connection and reach the consumer, and requests about it that come over the private connection are answered; before and after, events go through the router. Closing and opening again gives the same as opening once.", "quantifier": "all interleavings of opening, closing, listening threads, consumers connecting, registering and going, events published and requests handled", "why_tests_cant": "The outcome depends on when the consumer has connected, on when the provider notices that a connection has ended, and on what is closed while an event is being sent.", "anchors": ["src/core/rbuscore.c: rbuscore_startPrivateListener, rbuscore_updatePrivateListener, rbuscore_PrivateThreadFunc, _onDirectMessage, rbuscore_FindServerPrivateClient, rbuscore_publishDirectSubscriberEvent, rbus_publishSubscriberEvent", "src/rtmessage/rtrouteBase.c: rtRouteDirect_StartInstance, rtRouteDirect_SendMessage, rtRouteBase_BindListener"]}
{"id": "C77", "title": "Comparing objects tells whether they are the same", "statement": "Comparing two objects gives 0 exactly when nothing that can be read by name tells them apart: name, properties in any order, what values hold, and children to any depth if asked to recurse. Being equal is an equivalence; a copy, or an object received as it was sent, is equal to the original; comparing never reads outside the two.", "quantifier": "all pairs of objects and values, nested to any depth and width; recursive or not", "why_tests_cant": "The comparison searches one tree for each name of the other, at all depths; tests compare a handful of flat objects, and the shapes on which it errs (repeated names, missing names, NULL inside) are not among them.", "anchors": ["src/rbus/rbus_object.c: rbusObject_Compare", "src/rbus/rbus_property.c: rbusProperty_Compare", "src/rbus/rbus_value.c: rbusValue_Compare"]}
{"id": "C78", "title": "A time written as text is read back as the same time", "statement": "The text of a time value is an ISO 8601 notation of it, complete in 26 bytes; every such notation of a moment is read as that moment, with its time zone, so that writing and reading gives the same moment; text that is not a time is refused; writing stays inside the buffer given.", "quantifier": "all time values and all texts; all sizes of buffer", "why_tests_cant": "Years, zones, separators and truncation multiply; the errors sit at particular years, at zones written another way and at fields that are never set, which tests that print and parse one date do not see.", "anchors": ["src/rbus/rbus_value.c: rbusValue_ToString, rbusValue_SetFromString, rbusValue_MarshallTMtoRBUS"]}
{"id": "C79", "title": "A floating-point number written as text is read back as the same number", "statement": "The text of a floating-point value is the value to the nearest unit of its last digit; reading that text gives the same value again; a text is accepted exactly if it is a number in decimal notation or a word for infinity or NaN that is in range, and then gives the nearest value of the type; writing stays inside the buffer given.", "quantifier": "all values of both floating-point types and all texts; every correct rounding of the C library; all sizes of buffer", "why_tests_cant": "There are 2^64 values; those for which the digits do not suffice begin at one magnitude and lie between others for which they do; the numbers tests use are short decimals, which come back.", "anchors": ["src/rbus/rbus_value.c: rbusValue_ToString, rbusValue_SetFromString"]}
{"id": "C80", "title": "The caller of a method gets what the handler gave", "statement": "Calling a method calls the handler registered for exactly this name, once, with exactly the parameters passed; the caller gets the handler's code and output parameters, whether the handler answers at once or later; an error is noted in the output parameters without changing anything else in them; if there is no such method, or no answer, no handler is reported to have succeeded and the caller finds the reason in the output parameters.", "quantifier": "all names, all objects as parameters, all handlers, all codes, all answers given at once, later or never, all errors on the way", "why_tests_cant": "Tests use a few handlers with a few properties; what is lost or added depends on the combination of code, output object and the time of the answer, and on every byte of the messages.", "anchors": ["src/rbus/rbus.c: rbusMethod_Invoke, rbusMethod_InvokeAsync, rbusMethod_SendAsyncResponse, _method_callback_handler, rbusError_ToString"]}
{"id": "C81", "title": "Tables have exactly the rows that were added and not removed", "statement": "A row that was added with the consent of the provider's handler, or registered by the provider, is there with all elements declared for rows, under its number and under its alias, until it is removed or unregistered, and then is gone with all below it; nothing else changes. Each call gets the answer that the state of the table calls for, the number the handler gave comes back, and listing a table gives exactly its rows, in the order in which they came, with their numbers and aliases.", "quantifier": "all data models declared in order, all histories of adding, removing, registering, unregistering and listing rows, including nested tables, all numbers, aliases and codes of handlers", "why_tests_cant": "Tests add and remove a few rows of one table; what a name leads to depends on the whole history of all tables above and below it, on numbers close to 2^31 and on the aliases of all other rows.", "anchors": ["src/rbus/rbus.c: rbusTable_addRow, rbusTable_removeRow, rbusTable_registerRow, rbusTable_unregisterRow, rbusTable_getRowNames, _table_add_row_callback_handler, _table_remove_row_callback_handler, registerTableRow, unregisterTableRow", "src/rbus/rbus_element.c: instantiateTableRow, deleteTableRow, retrieveInstanceElementEx"]}
{"id": "C82", "title": "Partial paths and wildcards give the values of exactly the elements they stand for", "statement": "A get with a name that ends with a dot gives the value of every readable element below it, each once, under its full name and from its own handler, in the order of the data model, and of no other element; row templates are not among them. A wildcard stands for every row of its table, in order. A query with wildcards that ends with a name gives what getting the names it stands for one by one gives, up to the first error. Handlers are called for these names and for no others, and the values of failed handlers are not in the answer.", "quantifier": "all data models declared in order, all histories of rows, all queries of any number of components and wildcards, all handlers whose answers may depend on all calls before", "why_tests_cant": "Tests ask a few fixed queries of one small data model; which elements a query stands for depends on all declared elements, all rows of nested tables and where the wildcards stand.", "anchors": ["src/rbus/rbus.c: get_recursive_wildcard_handler, _get_recursive_partialpath_handler, _convert_reg_name_to_instance_name, _get_callback_handler", "src/rbus/rbus_element.c: retrieveInstanceElement"]}
{"id": "C83", "title": "Getting a name or a query gives the providers' values or an error", "statement": "Getting a single name makes one call of the handler of the provider that has the element and gives exactly the value of the handler, or the handler's error. Names of events and methods and queries are refused by the call for single names without a request. A query goes to all providers that the router has for it, and the caller gets all their values in order and their number, or an error if one of them fails; the caller's result variables are set whatever they held before.", "quantifier": "all names, all data models of any number of providers, all answers of handlers, all lost requests and lost answers, all values of the caller's variables before the call", "why_tests_cant": "Tests ask one or two providers that all answer; what the caller gets depends on which of any number of providers has values, which of them fails, and on what the result variables held before.", "anchors": ["src/rbus/rbus.c: rbus_get, rbus_getExt, _getExt_response_parser, _get_callback_handler"]}
{"id": "C84", "title": "Listing elements and rows gives what the providers have", "statement": "Listing the elements of a name gives, for every provider that the router has for the name, the element and all elements below it down to the given depth, or exactly those at the depth if it is negative: each once, with its name, its kind, what can be done with it, and the provider. Row templates are not listed. Listing the rows of a table gives exactly the numbers and aliases of its rows. If a provider cannot be asked, the caller gets an error and no list.", "quantifier": "all data models and rows of any number of providers, all names and depths, all lost requests and lost answers", "why_tests_cant": "Tests list a few fixed trees at one provider; what is listed depends on the whole tree, the depth, and which of any number of providers fails.", "anchors": ["src/rbus/rbus.c: rbusElementInfo_get, _get_parameter_names_handler, rbusTable_getRowNames"]}
{"id": "C85", "title": "Registering a data model is all or nothing", "statement": "When a component registers a list of elements and is told success, none of the names was taken, the router sends every message to one of the elements, or to a row or an element in a row of one of the tables, to this component and to nobody else, and everything else goes where it went before. When it is told anything else, all messages go exactly where they went before. A list with a name that is taken or that occurs twice is refused; new names are accepted if no request is lost. Unregistering elements takes exactly these names, and what is below them, from the router.", "quantifier": "all histories of connections, names and removals of any number of clients that follow the convention for names, all data models, all requests of the registration that are lost", "why_tests_cant": "Tests register a few lists at a router that is empty otherwise; what a registration that fails in the middle leaves behind depends on the names of all other components, and on which of the requests fails.", "anchors": ["src/rbus/rbus.c: rbus_regDataElements, rbus_unregDataElements", "src/core/rbuscore.c: rbus_addElement, rbus_removeElement", "src/rtmessage/rtConnection.c: rtConnection_AddAlias, rtConnection_RemoveAlias", "src/rtmessage/rtrouted.c: rtRouted_OnMessageSubscribe"]}
{"id": "C86", "title": "Values set and read pass between caller and handlers unchanged", "statement": "A value that is set reaches the set handler of the element exactly once, as the caller gave it, with the caller's session, name and wish to commit, and the caller gets the handler's result. Several values set at a provider reach the handlers in their order, only the last being told to commit; at the first failure the caller learns which property failed and why, and with rolling back the values that were read before are set again. A value that is read is the one the handler left, and nothing is stored unless the result is success. A value set with the function for one type is what the function for this type reads, and functions for other types report an error. A request that is lost calls nothing and is never reported as success.", "quantifier": "all applications (handlers may depend on everything called before), all values that can be sent, all names, sessions and options, requests and responses that are lost", "why_tests_cant": "Tests set and read a few values of each type; that no value, name or option is changed on its way through two encodings, in whatever combination, with handlers failing anywhere, is a statement about all of them.", "anchors": ["src/rbus/rbus.c: _setInternal, _setMultiInternal, rbus_setCommit, rbus_get, rbus_getExt, rbus_getByType, rbus_setByType, _set_callback_handler, _get_callback_handler, _callback_handler"]}
{"id": "C87", "title": "What is put into a message of the router is read from it", "statement": "A text, number, truth value, message or binary value that is set in a message under a name is read back from it with success, under this name, capitals ignored, whatever other fields are set or added to in between. A field that is only added to is the list of what was added, in its order, with its length. A field that was never made is not found by any function, and nothing is stored for it. Setting a topic and reading it gives the topic. Building a message never goes wrong.", "quantifier": "all sequences of calls that build a message, all names and values, all indices and buffer sizes", "why_tests_cant": "Tests build a few messages with few fields and read each field as the type it was set with; names that occur twice or differ in capitals, reading as another type, and buffers that just fit are not tried.", "anchors": ["src/rtmessage/rtMessage.c: rtMessage_SetString, rtMessage_SetInt32, rtMessage_SetBool, rtMessage_SetDouble, rtMessage_SetMessage, rtMessage_AddString, rtMessage_AddMessage, rtMessage_AddBinaryData, rtMessage_SetSendTopic, rtMessage_GetString, rtMessage_GetStringValue, rtMessage_GetInt32, rtMessage_GetBool, rtMessage_GetDouble, rtMessage_GetMessage, rtMessage_GetBinaryData, rtMessage_GetArrayLength, rtMessage_GetStringItem, rtMessage_GetMessageItem, rtMessage_GetSendTopic"]}
{"id": "C88", "title": "The socket that is opened is the one of the address", "statement": "An address unix:// with a path is the socket of this path; tcp:// with an IPv4 address and a decimal port is this address and port; tcp:// with the name of an interface is the address of this interface. Printing the address gives the text and port back. Any other address is refused with an error. A socket is never made for something that is not in the text, and reading an address keeps within its memory.", "quantifier": "all texts of addresses, all interfaces of the system, all buffer sizes", "why_tests_cant": "Tests use the two addresses of the router; paths that are too long, ports out of range and hosts that are no addresses are not tried, and an abort of the process cannot be observed from within.", "anchors": ["src/rtmessage/rtSocket.c: rtSocketStorage_FromString, rtSocketStorage_ToString, rtSocketStorage_ParsePort, rtSocketStorage_GetLength, rtSocket_IsNumeric, rtSocket_InterfaceNameToAddress"]}
{"id": "C89", "title": "Adding and removing rows passes between caller and provider unchanged", "statement": "Whoever adds a row reaches the handler of the table, which is given the name of the table and the alias, once; the caller gets its code and the number it gave the row. Removing a row reaches the handler of its table with the name of the row. After success the row is there, made like the row template, or gone with all below it; after any other code nothing has changed. If the request is lost nothing happens. At any time a table has exactly the rows its handlers agreed to, whatever messages were lost.", "quantifier": "all declared data models, all sequences of adding and removing rows, all losses of requests and answers, all names, aliases, codes and numbers", "why_tests_cant": "Tests add a few rows to one table on an idle bus; lost requests and answers, and the bytes of the messages, are not tried.", "anchors": ["src/rbus/rbus.c: rbusTable_addRow, rbusTable_removeRow, _table_add_row_callback_handler, _table_remove_row_callback_handler, registerTableRow, unregisterTableRow, _callback_handler", "src/core/rbuscore.c: rbus_invokeRemoteMethod2"]}
{"id": "C90", "title": "Destroying a connection ends its threads and uses nothing freed", "statement": "When a connection is destroyed while its threads read messages, call callbacks and reconnect, and other threads wait for answers, the call returns, no callback is called after it began, nothing of the connection runs after it returned, every message taken in is released exactly once, waiting requests return with an error, and nothing freed is used.", "quantifier": "for all interleavings of the reader thread, the callback thread, the thread that destroys the connection and threads sending requests, at the granularity of critical sections; all messages read", "why_tests_cant": "whether a wakeup is lost, a thread waits on the wrong socket, or freed memory is used depends on the interleaving; a test sees a few of them", "anchors": ["src/rtmessage/rtConnection.c:697-765", "src/rtmessage/rtConnection.c:974-1109", "src/rtmessage/rtConnection.c:1478-1705", "src/rtmessage/rtConnection.c:1762-1956"]}
{"id": "C91", "title": "A published event reaches its subscribers as it was published", "statement": "When a provider publishes an event, each subscription that covers the element and is to hear of it is sent one message, whose bytes make the subscriber's process call the handler of that subscription at the handle that subscribed, once, with the name, type and data that were published; nobody else is sent anything, and whoever no longer subscribes is not called. Publishing answers success only if all were sent.", "quantifier": "for all events with data of any shape, all providers with any history of subscriptions and rows, all processes of subscribers with any history, through the bytes of the message", "why_tests_cant": "the property spans the provider's registry, the encoding of the event, the metadata and the subscriber's list, for data of any nesting; a test covers one event between two processes", "anchors": ["src/rbus/rbus.c:888-951", "src/rbus/rbus.c:1426-1494", "src/rbus/rbus.c:5907-6034", "src/core/rbuscore.c:1452-1520", "src/core/rbuscore.c:1832-1878", "src/rbus/rbus_handle.c:131-149"]}
{"id": "C92", "title": "A value tells what was put into it last, and gives back its memory", "statement": "Whatever a program does with values - setting numbers, dates, strings, bytes, properties and objects by the typed functions or by type, length and bytes, copying, retaining, releasing - every getter tells the type and data put in last or that the type is another one; a pointer to a string stays good until the value is set or freed; no memory is touched that is not the value's own; each property or object has one reference for each value that holds it; and when the values are released nothing remains.", "quantifier": "for all sequences of calls on any number of values, all types, and all data of any length", "why_tests_cant": "the property is about every order of calls on values of every type, including how buffers are reused and grown; a test runs a few orders and cannot see memory that is lost", "anchors": ["src/rbus/rbus_value.c:43-67", "src/rbus/rbus_value.c:100-183", "src/rbus/rbus_value.c:424-689", "src/rbus/rbus_value.c:1028-1062", "src/rbus/rbus_value.c:1295-1344", "src/rbus/rbus_buffer.c:85-134"]}
{"id": "C93", "title": "Threads never wait for each other forever, and what a lock guards is used by one thread at a time", "statement": "Whatever a program's threads call and whatever comes in - events, requests, subscriptions, news of clients that have gone, changes of watched values, intervals - and whatever the program's handlers call in turn: no threads wait for each other forever, each thread that has not ended can go on or waits for one that can, two threads are never at once inside the lists a lock guards, and no mutex is used in a way that is undefined.", "quantifier": "for all numbers of threads, all programs of calls nested in handlers, and all interleavings of their steps", "why_tests_cant": "deadlocks and lost exclusion depend on an interleaving that a test hits by chance at best, and on what every other thread of the process happens to call", "anchors": ["src/rbus/rbus.c:1070-1237", "src/rbus/rbus.c:1355-1494", "src/rbus/rbus.c:3164-3271", "src/rbus/rbus_valuechange.c:127-424", "src/rbus/rbus_intervalsubscription.c:115-304", "src/rbus/rbus_element.c:485-604", "src/rbus/rbus_handle.c:104-129", "src/rbus/rbus_subscriptions.c:746-862", "src/rbus/rbus_asyncsubscribe.c:158-313", "src/core/rbuscore.c:385-421", "src/core/rbuscore.c:661-695", "src/core/rbuscore.c:3041-3121"]}
{"id": "C94", "title": "The trace context of a request goes along with everything done on its behalf, and with nothing else", "statement": "A thread that sets a trace context gets the same back, whatever other threads do, and every request it makes carries it. The thread that handles a request has the request's context while it does: requests it makes, and requests made on behalf of those over any number of components, carry the same context. Once the request has been answered the context is gone from the thread.", "quantifier": "for all strings, all threads and components, all interleavings of setting, clearing, requesting, handling and answering, and chains of requests of any length", "why_tests_cant": "a context that leaks from one request to another, or is lost on the way, shows only for particular orders of what threads do, and only in the traces", "anchors": ["src/core/rbuscore.c:48-62", "src/core/rbuscore.c:424-510", "src/core/rbuscore.c:1111-1139", "src/core/rbuscore.c:2354-2432", "src/core/rbuscore.c:2727-2757", "src/rbus/rbus.c:6142-6206", "src/rbus/rbus.c:6459-6524", "include/rbus.h:763-803"]}
{"id": "C95", "title": "Values sent by components of the older library arrive as what their texts mean", "statement": "A component of the older library (CCSP) sends a value as the number of its type and a text. rbus_get, rbus_getExt and the handlers of set requests give it as a value of the corresponding type and with the content that the text means; values of now are never mistaken for such. A text that means no value of its type is refused.", "quantifier": "for all texts of all types, all numbers of parameters in one message, and all mixtures of older and present components", "why_tests_cant": "texts and types are too many to try, and which reader is chosen depends on bytes in the message", "anchors": ["src/rbus/rbus.c:80-110", "src/rbus/rbus.c:408-478", "src/rbus/rbus.c:496-631", "src/rbus/rbus.c:1496-1560", "src/rbus/rbus.c:3465-3618"]}
{"id": "C96", "title": "Everybody learns whether a session is open", "statement": "rbus_createSession succeeds exactly when no session is open, rbus_getCurrentSession gives the number of the open one, rbus_closeSession succeeds for this number only; a call that fails is told as such. Every request for a session and every closing is announced to the subscribers of currentSessionIDSignal, and what was announced last is what rbus_getCurrentSession would tell.", "quantifier": "for all histories of calls by any number of clients, with requests and answers lost at any place, and new starts of the session manager", "why_tests_cant": "which messages are lost, and in which order clients call, is beyond what a test can choose", "anchors": ["src/session_manager/session_manager.c:28-176", "src/session_manager/rbus_session_mgr.h:22-26", "src/rbus/rbus.c:6036-6112", "src/rbus/rbus.c:6240-6388"]}
{"id": "C97", "title": "Data sent as is arrives once, whichever connection it takes", "statement": "Whoever has called rbusEvent_SubscribeRawData for an event, and not rbusEvent_UnsubscribeRawData since, gets each publication of the event by rbusEvent_PublishRawData exactly once, with the handler, user data and handle of the subscription and the name of the event, before, during and after rbus_openDirect and rbus_closeDirect for it; nobody else gets it. Memory in use does not grow by opening and closing.", "quantifier": "for all histories of subscribing, unsubscribing, opening and closing by one consumer, for any number of events of a provider, with publications at any moment, also in the middle of opening and closing", "why_tests_cant": "publications in the few instructions between two lists of listeners cannot be arranged by a test, and memory just freed mostly still holds what it held", "anchors": ["src/rbus/rbus.c:337-406", "src/rbus/rbus.c:3079-3162", "src/rbus/rbus.c:4950-5019", "src/rbus/rbus.c:5219-5332", "src/rbus/rbus.c:5453-5493", "src/rbus/rbus.c:5849-5903", "src/rbus/rbus_message.c:73-293", "src/core/rbuscore.c:1818-1830"]}
{"id": "C98", "title": "What is put into an object under a name is what is read from it", "statement": "Data put under a name of an object with a typed setter (rbusObject_SetPropertyInt32 and the like) is given by the getter of the same type until something else is put there, and refused by getters of other types; a name that was never set is reported as missing. A value given to an object is shared, not copied. Setting under one name changes nothing under other names or in other objects, also where the same value is in several places. Reading a property that is not there gives an error.", "quantifier": "for all sequences of making and releasing objects and values, setting and changing them directly or through the objects that hold them, and reading, by one thread", "why_tests_cant": "which other reads a write affects depends on which of the many properties happen to hold the same value, and there are unboundedly many ways to arrive at such sharing", "anchors": ["src/rbus/rbus_property.c:218-350", "src/rbus/rbus_object.c:272-384", "src/rbus/rbus_object.c:466-538", "src/rbus/rbus_value.c:436-555", "src/rbus/rbus_value.c:1303-1344"]}
{"id": "C99", "title": "The file of private connections tells what was served, and a damaged one does no harm", "statement": "A provider that starts again logs, for every private connection it served when it last changed them, the element and the consumer, in the order they were opened; it tells of none after the last was closed. What it reads is what it itself served. A file of which only a part was written is noticed and does not make the process fail.", "quantifier": "for all sequences of starts of the processes of a program, openings, closings and disappearing consumers, any number of connections below 2^31, and every length at which the file may have been cut", "why_tests_cant": "there are unboundedly many lists and lengths; the failure needs a full disk or a kill at the wrong moment, and a restart afterwards", "anchors": ["src/core/rbuscore.c:375-383", "src/core/rbuscore.c:2478-2632", "src/core/rbuscore.c:2637-2722", "src/core/rbuscore.c:2801-2851", "src/core/rbuscore_message.c:253-263"]}
{"id": "C100", "title": "A message that is logged reaches the handler or is printed from its level up", "statement": "With a log handler registered every message goes to the one registered last, with its level and text and the place it comes from. Without one it is printed, once and in one line, if its level is at least the one set last with rbus_setLogLevel, or named by RT_LOG_LEVEL in letters of any size; other values of RT_LOG_LEVEL end the program. Texts are shown whole, or cut and marked so.", "quantifier": "for all values of the environment, sequences of calls, levels, and texts of any length", "why_tests_cant": "the text that is cut without a mark has exactly one length out of all; what a level does depends on everything called before", "anchors": ["src/rtmessage/rtLog.c:52-99", "src/rtmessage/rtLog.c:150-203", "src/rtmessage/rtLog.c:248-299", "src/rbus/rbus.c:6397-6420"]}
{"id": "C101", "title": "Tables with a sync handler are read as the provider's data is at the time", "statement": "When every table has a handler that registers and unregisters rows so that they match the provider's data, each listing of names, row names, read of a property, of a branch or through a wildcard shows exactly the elements that follow from what is registered and the data now, each once, whatever was asked before and however the data changed; the number of names told equals the number of names; no request goes on from a row that was removed; a handler applies to all instances of its table.", "quantifier": "for all registered trees of any depth, histories of requests, data that may change with every call of a handler, names and depths", "why_tests_cant": "rows come and go inside the requests themselves, at any level of nesting, and handlers are called several times per request", "anchors": ["src/rbus/rbus_element.c:485-602", "src/rbus/rbus.c:1752-1952", "src/rbus/rbus.c:2119-2334", "src/rbus/rbus.c:4599-4664", "src/rbus/rbus.c:6526-6552"]}
{"id": "C102", "title": "What is printed tells what is there", "statement": "Printing a value, property, object or filter shows everything in it: two that print the same hold the same names, the same types and texts of values, put together in the same way.", "quantifier": "every object, chain of properties and filter, of any size and depth of nesting, at every indentation", "why_tests_cant": "The question is about pairs of trees of unbounded size: a test prints some and looks at the text; that no two different ones give the same text is not a statement about any of them.", "anchors": ["src/rbus/rbus_object.c: rbusObject_fwrite", "src/rbus/rbus_property.c: rbusProperty_fwrite", "src/rbus/rbus_value.c: rbusValue_fwrite, rbusValue_ToDebugString, rbusValueType_ToDebugString", "src/rbus/rbus_filter.c: rbusFilter_fwrite"]}
{"id": "C103", "title": "Requests reach what was registered, events those who asked", "statement": "A program using the core library registers objects, methods, events and subscribe handlers. Every such call is answered by what is registered at that moment; a request goes to the callback of the method, else to the handler of the object; an event is sent to exactly those who asked for it and have not left, once each, in the order they came; the callback of an event is told of each who comes and goes.", "quantifier": "every history of registering, removing, requests, subscriptions and publishing, over any number of objects, methods, events and listeners; every interleaving of a publishing thread with listeners who come", "why_tests_cant": "Which callback runs depends on the whole history of registrations and removals; tests run short ones with a few names and never fill the table of methods or let a listener leave during the loop.", "anchors": ["src/core/rbuscore.c: rbus_registerObj, rbus_unregisterObj, rbus_registerMethod, rbus_unregisterMethod, rbus_registerEvent, rbus_unregisterEvent, rbus_registerSubscribeHandler, rbus_publishEvent, dispatch_method_call, server_object_subscription_handler", "src/rtmessage/rtVector.c: rtVector_At"]}
{"id": "C104", "title": "Who subscribed gets the events", "statement": "A program that subscribed to an event of an object with the core library, was told of success and did not unsubscribe since, gets every event of this name the object publishes, by the callback it gave; no callback is called for another event or after it was given up.", "quantifier": "every history of calls to subscribe and unsubscribe, their answers in any of five ways, events published and providers that forget; any number of objects, events and callbacks; answers may come after any number of other steps", "why_tests_cant": "Whether an event arrives depends on two lists in two programs that are changed by calls, answers and losses of answers in any order; tests run subscribe, publish, unsubscribe with everything answered.", "anchors": ["src/core/rbuscore.c: rbus_subscribeToEvent, rbus_unsubscribeFromEvent, master_event_callback, remove_subscription_callback, send_subscription_request"]}
{"id": "C105", "title": "A method called without waiting is answered once", "statement": "For each method called asynchronously the callback is called once, with the handle and the method of the call and the answer to the request, which is sent once, with the parameters and the timeout given; parameters and output parameters are destroyed when neither the program nor a call needs them any more, not before and not twice.", "quantifier": "every history of any number of handles, objects and calls, with the steps of the program and of the threads of the calls interleaved in any way, answers of any kind, threads that cannot be made", "why_tests_cant": "When an object is destroyed depends on which of any number of threads ends last; tests make one call, wait for the callback and then release everything.", "anchors": ["src/rbus/rbus.c: rbusMethod_InvokeAsync, rbusMethod_InvokeAsyncThreadFunc, rbusMethod_InvokeInternal, rbus_close", "src/rbus/rbus_object.c: rbusObject_Retain, rbusObject_Release"]}
{"id": "C106", "title": "All in a process share one connection", "statement": "Opening the connection with the core library makes one if there is none and shares it otherwise; closing is refused while others have objects registered and else destroys it, after which it can be opened again; whatever was answered, later calls by any thread are answered too. There is never more than one connection.", "quantifier": "every history of calls to open, close, register, unregister and look up, by any number of threads, with opening and closing interleaved with the others, and a router that can or cannot be reached", "why_tests_cant": "What a call finds depends on which threads opened and closed before and on where in closing another thread is; tests open once and close once from one thread.", "anchors": ["src/core/rbuscore.c: rbus_openBrokerConnection2, rbus_closeBrokerConnection, perform_init, perform_cleanup, rbus_registerObj, rbus_unregisterObj"]}
{"id": "C107", "title": "How long a call waits", "statement": "Every call that waits for another component waits as long as the latest configuration for its kind on its handle says, 0 standing for the built-in time; a time given with the call goes first, a file for the program and the kind before the configuration; configuring a handle or a kind changes no other.", "quantifier": "every history of opening, closing, configuring and calling on any number of handles, every environment, every set of files at each call", "why_tests_cant": "The time depends on the last of many settings, on the environment at opening and on the files at the call; tests set one and wait for one.", "anchors": ["src/rbus/rbus_handle.c: rbusHandle_TimeoutValuesInit, rbusHandle_Config*Timeout, rbusHandle_Fetch*Timeout", "src/rbus/rbus.c: rbusHandle_ConfigTimeoutValues, _setInternal, _setMultiInternal, rbusMethod_InvokeAsync, rbusEvent_Subscribe"]}
{"id": "C108", "title": "Discovery gives what the router answered", "statement": "Asking for the registered components, the elements of a component, the components that have an element, or those that match a wildcard gives exactly the names in the router's answer, in its order, with their number; on an error the caller holds nothing to free and nothing freed; no answer makes the call undefined.", "quantifier": "every answer (any number, any items, fields missing), every point at which memory runs out, connected or not", "why_tests_cant": "Answers that contradict themselves and allocations that fail in the middle cannot be produced by a test with the real router.", "anchors": ["src/core/rbuscore.c: rbus_discoverRegisteredComponents, rbus_discoverWildcardDestinations, rbus_discoverObjectElements, rbus_discoverElementObjects", "src/rbus/rbus.c: rbus_discoverComponentDataElements", "src/rtmessage/rtrouted.c: rtRouted_OnMessageDiscover*"]}
{"id": "C109", "title": "Consumer and provider agree on a private connection", "statement": "Opening a private connection to an element a provider has gives the consumer the provider's name and the address of the socket the provider listens at; the provider listens once for each consumer; sockets of different consumers and different providers are different; a request that cannot be served is refused with a code.", "quantifier": "every name of program, consumer and element, every broker's address, every sequence of requests, requests lacking fields, threads that cannot be started", "why_tests_cant": "Which addresses collide depends on names of any length and on two processes of one program; undefined reads of a buffer without end mostly look right in a run.", "anchors": ["src/rbus/rbus.c: _create_direct_connection_callback_handler", "src/core/rbuscore.c: rbuscore_createPrivateConnection, rbuscore_startPrivateListener, rbuscore_openPrivateConnectionToProvider"]}
{"id": "C110", "title": "The file names the broker", "statement": "A process connects to the broker named by the first word of /etc/rbus_client.conf, whatever blank lines come before and whatever follows; without the file, or without a word in it, it uses the default; no content of the file is written outside the memory for the address.", "quantifier": "every content of the file: any number and kind of blanks, words of any length, lines of any length, NUL bytes", "why_tests_cant": "The effect of the buffer's end depends on how blanks and words lie relative to multiples of 255 bytes; a test tries a few files.", "anchors": ["src/core/rbuscore.c: configure_router_address, g_daemon_address"]}
{"id": "C111", "title": "Asking for several subscriptions without waiting is all or nothing", "statement": "rbusEvent_SubscribeExAsync either asks for all the given subscriptions, in their order, or fails and leaves the handle as it was; it succeeds whenever none of the subscriptions exists or is being asked for; until the provider answers, events go where they went before.", "quantifier": "every history of a handle, every list of subscriptions of any length, every outcome of the requests", "why_tests_cant": "Which of many subscriptions is in the way, and what undoing the others finds, depends on the whole history of the handle.", "anchors": ["src/rbus/rbus.c: rbusEvent_SubscribeExAsync, rbusEvent_UnsubscribeEx, rbusEvent_SubscribeWithRetries", "src/rbus/rbus_asyncsubscribe.c: rbusAsyncSubscribe_AddSubscription, rbusAsyncSubscribe_RemoveSubscription, rbusAsyncSubscribe_GetSubscription"]}
{"id": "C112", "title": "A process learns when another one is gone", "statement": "As long as a process is connected to the bus, it is told whenever the connection of another process ends, so that it can drop what it keeps for that process; other notices have no effect.", "quantifier": "every sequence of opening and closing handles and direct handles, registering elements, adding and removing listeners, and notices", "why_tests_cant": "Whether the notice is listened for depends on the whole history of handles and listeners; a test sees one history and seldom ends a consumer without unsubscribing.", "anchors": ["src/core/rbuscore.c: rbus_registerClientDisconnectHandler, rbus_unregisterClientDisconnectHandler, rtrouted_advisory_callback, rbus_closeBrokerConnection", "src/rbus/rbus.c: rbus_openDirect, rbus_closeDirect, rbus_close, rbus_regDataElements", "src/rtmessage/rtConnection.c: rtConnection_AddListenerWithId, rtConnection_RemoveListenerWithId"]}
{"id": "C113", "title": "The router listens where it is told", "statement": "The router listens exactly at the addresses given in its configuration file, or else in its options, or else at the default address, and accepts everybody who connects there; if it cannot, it ends with an error.", "quantifier": "every configuration file, every list of addresses, everything the system may do with them", "why_tests_cant": "What happens depends on which addresses are free, on how many attempts fail, and on the order; binding failures take minutes to show.", "anchors": ["src/rtmessage/rtrouted.c: main, rtRouted_ParseConfig", "src/rtmessage/rtrouteBase.c: rtRouteBase_BindListener"]}
{"id": "C114", "title": "Warnings about names registered twice are limited, not lost", "statement": "When the registration of a name is refused as a duplicate, the router writes a warning to its log, unless the last such warning was about the same name and less than a minute ago.", "quantifier": "every sequence of refused registrations at any times", "why_tests_cant": "A test would have to wait for minutes or days, and try names of every length in every order.", "anchors": ["src/rtmessage/rtrouted.c: rtRouted_ShouldLimitLog, rtRouted_AddAlias", "src/rtmessage/rtTime.c: rtTime_Elapsed"]}
{"id": "C115", "title": "A client reads each message whole, however it arrives", "statement": "Messages sent to a client are read in order and exactly as sent, in whatever pieces the bytes arrive and whatever signals interrupt the reading, and a message cut off by the end of the connection is never handed over.", "quantifier": "every sequence of messages, every division of their bytes into pieces, every placement of interruptions, every point at which the connection ends", "why_tests_cant": "The pieces in which a socket delivers bytes are chosen by the kernel; a test sees a few of them, mostly whole messages.", "anchors": ["src/rtmessage/rtConnection.c: rtConnection_ReadUntil, rtConnection_Read", "src/rtmessage/rtMessageHeader.c: rtMessageHeader_Decode"]}
