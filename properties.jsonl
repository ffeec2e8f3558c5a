{"id": "C01", "title": "Parcel round trip for plain data", "statement": "Any sequence of values appended with gbinder_writer_append_{bool,int8,int16,int32,int64,float,double,string8,string16/utf16,byte_array} is read back, value for value and in order, by the corresponding sequence of gbinder_reader_read_* calls, and after the last read gbinder_reader_at_end() is TRUE.", "quantifier": "all finite sequences of appended values, all values, all string and array lengths that fit in gint32", "why_tests_cant": "Alignment and padding interact across neighbouring items; the space of sequences, values and lengths is infinite.", "anchors": ["src/gbinder_writer.c:gbinder_writer_data_append_*", "src/gbinder_reader.c:gbinder_reader_read_*"]}
{"id": "C02", "title": "Word alignment of the output parcel", "statement": "Starting from an empty parcel, after any sequence of append calls other than the raw ones (append_bytes, append_parcelable) the number of bytes written is a multiple of 4, so that every int32/int64/object starts on a 4-byte boundary.", "quantifier": "all sequences of append operations and arguments", "why_tests_cant": "Padding must be right for all lengths modulo 4 in every combination.", "anchors": ["src/gbinder_writer.c", "src/gbinder_writer.c:gbinder_writer_data_append_padded"]}
{"id": "C03", "title": "Reader stays inside the received buffer", "statement": "Whatever bytes and object offsets a peer supplies, no sequence of gbinder_reader_read_* / skip_* calls dereferences memory outside the received buffer and the position reported by gbinder_reader_bytes_read never exceeds the buffer size.", "quantifier": "all buffer contents, all sequences of reader calls", "why_tests_cant": "The input is attacker controlled; only a handful of malformed parcels can be tried.", "anchors": ["src/gbinder_reader.c", "src/gbinder_io.c:decode_binder_object"]}
{"id": "C04", "title": "A failed read does not move the reader", "statement": "When a fixed-size read (bool, intN, float, double, fd, object, buffer) fails, the reader position and the remaining object list are unchanged, so the caller can retry with another type.", "quantifier": "all buffers, all reader states, all fixed-size read calls", "why_tests_cant": "Failure can be reached in every position and state of the reader.", "anchors": ["src/gbinder_reader.c"]}
{"id": "C05", "title": "bytes_read and bytes_remaining are complementary", "statement": "For a reader obtained from a request or reply, gbinder_reader_bytes_read() + gbinder_reader_bytes_remaining() always equals the payload size, each successful fixed-size read advances the position by exactly the encoded size of the item, and gbinder_reader_get_data() returns everything that was received, no matter what has been read.", "quantifier": "all payloads, all sequences of successful reads", "why_tests_cant": "Depends on the complete history of reads.", "anchors": ["src/gbinder_reader.c:gbinder_reader_bytes_read", "src/gbinder_reader.c:gbinder_reader_bytes_remaining", "src/gbinder_reader.c:gbinder_reader_get_data"]}
{"id": "C06", "title": "NULL, empty and non-empty string16 stay distinguishable", "statement": "append_string16(NULL), append_string16(\"\") and append_string16(non-empty) are read back by read_nullable_string16 as NULL, \"\" and the same text respectively; skip_string16 skips exactly the bytes read_string16 would consume.", "quantifier": "all strings and all positions in a parcel", "why_tests_cant": "Three encodings with different lengths and paddings, unbounded string length.", "anchors": ["src/gbinder_writer.c:gbinder_writer_data_append_string16*", "src/gbinder_reader.c:gbinder_reader_read_nullable_string16_utf16"]}
{"id": "C07", "title": "UTF-8/UTF-16 text is preserved", "statement": "Text appended as UTF-8 with append_string16 is transmitted as well-formed UTF-16 and read_string16 returns the identical UTF-8 text; invalid UTF-8 input is cut at the longest valid prefix rather than corrupting the parcel.", "quantifier": "all byte strings", "why_tests_cant": "Surrogate pairs, 1-4 byte sequences and invalid prefixes form an infinite domain.", "anchors": ["src/gbinder_writer.c:gbinder_writer_data_append_string16_len", "src/gbinder_reader.c:gbinder_reader_read_string16"]}
{"id": "C08", "title": "Parcelable framing", "statement": "append_parcelable(buf,len) is read back by read_parcelable as exactly buf,len; NULL is read back as absent; the reader ends up right after the parcelable.", "quantifier": "all buffers whose length fits in gint32, all contexts", "why_tests_cant": "Unbounded sizes.", "anchors": ["src/gbinder_writer.c:gbinder_writer_append_parcelable", "src/gbinder_reader.c:gbinder_reader_read_parcelable"]}
{"id": "C09", "title": "overwrite_int32 touches exactly one word", "statement": "gbinder_writer_overwrite_int32(offset,v) either replaces exactly the 4 bytes at offset with v and leaves every other byte and the length unchanged, or (offset+4 beyond the end) changes nothing.", "quantifier": "all parcels, all offsets including huge ones, all values", "why_tests_cant": "Offset arithmetic is on gsize and may wrap.", "anchors": ["src/gbinder_writer.c:gbinder_writer_overwrite_int32"]}
{"id": "C10", "title": "Object offset table is well formed", "statement": "After any sequence of append calls the object offsets handed to the kernel are strictly increasing, each object lies completely inside the parcel, and no two objects overlap.", "quantifier": "all sequences of append calls on 32-bit and 64-bit binder, all protocols", "why_tests_cant": "Depends on the whole append history.", "anchors": ["src/gbinder_writer.c:gbinder_writer_data_record_offset", "src/gbinder_writer.c:gbinder_writer_data_append_*"]}
{"id": "C11", "title": "buffers_size accounts for every scatter-gather buffer", "statement": "The buffers size reported with a transaction is the sum over the buffer objects in the parcel of their lengths rounded up to 8, hence a multiple of 8 large enough for the kernel to place every buffer; it is non-zero exactly when some buffer object is non-empty and only then BC_TRANSACTION_SG/BC_REPLY_SG is used.", "quantifier": "all append histories", "why_tests_cant": "An accumulator over an unbounded history of nested structures.", "anchors": ["src/gbinder_writer.c:gbinder_writer_data_append_buffer_object", "src/gbinder_driver.c:gbinder_driver_transact", "src/gbinder_driver.c:gbinder_driver_reply_data"]}
{"id": "C12", "title": "Parent references point backwards to real buffers", "statement": "Every buffer object and fd array written with a parent refers to an object index smaller than its own, that index designates a buffer object, and the 8-byte slot at parent_offset lies within the parent's buffer.", "quantifier": "all uses of append_hidl_string, append_hidl_string_vec, append_hidl_vec, append_struct, append_struct_vec, append_fds in any sequence", "why_tests_cant": "Index bookkeeping is global to the parcel and nesting is unbounded.", "anchors": ["src/gbinder_writer.c:gbinder_writer_data_append_hidl_*", "src/gbinder_writer.c:gbinder_writer_data_append_fields"]}
{"id": "C13", "title": "HIDL string round trip", "statement": "A string appended with append_hidl_string and transferred by the kernel (which copies buffers and patches parent pointers) is read back unchanged by read_hidl_string.", "quantifier": "all strings, any preceding parcel contents", "why_tests_cant": "Requires correct pointer patching for every length and position.", "anchors": ["src/gbinder_writer.c:gbinder_writer_data_append_hidl_string", "src/gbinder_reader.c:gbinder_reader_read_hidl_string_c"]}
{"id": "C14", "title": "HIDL string vector round trip", "statement": "append_hidl_string_vec(strv) followed by read_hidl_string_vec returns the same strings in the same order.", "quantifier": "all vectors of strings of any length, including empty vectors", "why_tests_cant": "Unbounded vector and string sizes; each element is a separate patched buffer.", "anchors": ["src/gbinder_writer.c:gbinder_writer_data_append_hidl_string_vec", "src/gbinder_reader.c:gbinder_reader_read_hidl_string_vec"]}
{"id": "C15", "title": "HIDL vector round trip", "statement": "append_hidl_vec(base,count,elemsize) followed by read_hidl_vec returns count, elemsize and the same bytes.", "quantifier": "all element sizes, counts and contents", "why_tests_cant": "Unbounded sizes; division by count on the read side.", "anchors": ["src/gbinder_writer.c:gbinder_writer_data_append_hidl_vec", "src/gbinder_reader.c:gbinder_reader_read_hidl_vec"]}
{"id": "C16", "title": "Copying a received parcel is faithful", "statement": "gbinder_remote_{request,reply}_copy_to_local produces an outgoing parcel with the same bytes, the same object offsets and the total buffers size of the original; when a converter is used, only objects it translates are replaced and all other bytes keep their order.", "quantifier": "all received parcels, all sets of objects, all converters", "why_tests_cant": "Interleaving of data and objects is arbitrary.", "anchors": ["src/gbinder_writer.c:gbinder_writer_data_append_contents", "src/gbinder_writer.c:gbinder_writer_data_set_contents"]}
{"id": "C17", "title": "Incoming object offsets are validated", "statement": "For every incoming transaction or reply the object list handed to the reader is either empty or a list of non-overlapping objects fully inside the received buffer.", "quantifier": "all offset tables and sizes the driver may deliver", "why_tests_cant": "Adversarial offsets form an unbounded domain.", "anchors": ["src/gbinder_io.c:gbinder_io_decode_transaction_data"]}
{"id": "C18", "title": "RPC header round trip", "statement": "For each protocol (aidl, aidl2, aidl3, hidl) and each interface name, a request built by gbinder_client_new_request is recognised by the receiver: gbinder_remote_request_interface() returns the same name and the request reader is positioned exactly at the first byte of the payload.", "quantifier": "all interface names, all payloads, all protocols", "why_tests_cant": "Infinite set of names and payloads.", "anchors": ["src/gbinder_rpc_protocol.c", "src/gbinder_remote_request.c:gbinder_remote_request_set_data", "src/gbinder_local_request.c:gbinder_local_request_new_iface"]}
{"id": "C19", "title": "Local object references survive transfer", "statement": "A local object appended to a parcel is announced to the kernel with its own identity as both node pointer and (for aidl3) its stability, and a received handle is turned by read_object into the remote object with that handle; NULL is transferred as NULL.", "quantifier": "all objects, handles and protocols", "why_tests_cant": "Layout depends on io variant and protocol, domain of handles is infinite.", "anchors": ["src/gbinder_io.c:encode_local_object", "src/gbinder_io.c:decode_binder_object", "src/gbinder_reader.c:gbinder_reader_read_nullable_object"]}
{"id": "C20", "title": "Command stream independence from chunking", "statement": "The sequence of commands the library acts upon is the sequence the kernel wrote, each exactly once and in order, regardless of how reads split or batch them in the read buffer and of nested waits for a transaction status in the middle of a batch.", "quantifier": "all command streams and all ways of batching complete commands into reads", "why_tests_cant": "Unbounded streams and partitions; nested consumption compacts the buffer.", "anchors": ["src/gbinder_driver.c:gbinder_driver_handle_commands", "src/gbinder_driver.c:gbinder_driver_compact_read_buf", "src/gbinder_driver.c:gbinder_driver_next_command"]}
{"id": "C21", "title": "Exactly one reply per two-way transaction", "statement": "For each incoming transaction without the ONEWAY flag the library sends exactly one BC_REPLY (data or status); for a ONEWAY transaction it sends none, whatever the object, handler and return status.", "quantifier": "all transactions, objects, handler results and schedules", "why_tests_cant": "Many combinations of dispatch paths and outcomes.", "anchors": ["src/gbinder_driver.c:gbinder_driver_handle_transaction"]}
{"id": "C22", "title": "Transaction status mapping", "statement": "gbinder_driver_transact returns 0 if and only if the kernel reported completion of a one-way transaction or delivered a reply whose status is zero, GBINDER_STATUS_DEAD_OBJECT iff the kernel reported a dead target, GBINDER_STATUS_FAILED iff the kernel reported a failure, and otherwise either an ioctl error or the status chosen by the peer; the latter can never be mistaken for a dead object, a failure or 'still waiting'. Reports about replies sent while waiting are never taken for the outcome.", "quantifier": "all command sequences returned by the kernel while waiting", "why_tests_cant": "The peer chooses the status word; interleaved unrelated commands are arbitrary.", "anchors": ["src/gbinder_driver.c:gbinder_driver_txstatus", "src/gbinder_driver.c:gbinder_driver_transact"]}
{"id": "C23", "title": "Received kernel buffers are returned exactly once", "statement": "Every transaction or reply buffer delivered by the kernel is given back with BC_FREE_BUFFER exactly once, after the last request, reply, reader copy or forwarded reply using it is gone.", "quantifier": "all histories of ref/unref/set_data/copy operations", "why_tests_cant": "Depends on arbitrary sharing histories.", "anchors": ["src/gbinder_buffer.c", "src/gbinder_driver.c:gbinder_driver_handle_transaction", "src/gbinder_remote_reply.c", "src/gbinder_local_reply.c"]}
{"id": "C24", "title": "Reference count requests are acknowledged exactly once", "statement": "Every BR_INCREFS is answered by exactly one BC_INCREFS_DONE and every BR_ACQUIRE by exactly one BC_ACQUIRE_DONE with the same pointer and cookie, and BR_DEAD_BINDER for an object by exactly one BC_DEAD_BINDER_DONE, known object or not. BR_RELEASE and BR_DECREFS are not answered, the references are dropped in the order of those commands after everything else that came with them has been handled.", "quantifier": "all command sequences and registry contents", "why_tests_cant": "Any interleaving of commands for known and unknown objects.", "anchors": ["src/gbinder_driver.c:gbinder_driver_handle_command", "src/gbinder_local_object.c:gbinder_local_object_handle_acquire"]}
{"id": "C25", "title": "Async call: reply at most once, destroy exactly once", "statement": "For each gbinder_client_transact / gbinder_ipc_transact_custom call which returns a non-zero id the completion callback runs at most once, never after gbinder_client_cancel() has returned on the main thread, and the destroy callback runs exactly once, after the completion callback.", "quantifier": "all interleavings of submission, worker execution, completion and cancellation of any number of calls", "why_tests_cant": "Unbounded interleavings of worker and main threads.", "anchors": ["src/gbinder_ipc.c:gbinder_ipc_tx_proc", "src/gbinder_ipc.c:gbinder_ipc_tx_done", "src/gbinder_ipc.c:gbinder_ipc_cancel"]}
{"id": "C26", "title": "Transaction ids are unique and non-zero", "statement": "The id returned for an asynchronous call is never 0 and differs from the id of every call still outstanding, even after the counter wraps around.", "quantifier": "all histories of submissions and completions of any length", "why_tests_cant": "Wrap-around takes 2^64 (or 2^32) calls.", "anchors": ["src/gbinder_ipc.c:gbinder_ipc_tx_new_id", "src/gbinder_ipc.c:gbinder_ipc_tx_get_id"]}
{"id": "C27", "title": "Blocked request completes exactly once", "statement": "A request handled on the main thread is completed exactly once: with the handler's reply if it was not blocked, or with the reply given to gbinder_remote_request_complete() if it was, regardless of whether completion happens before or after the handler returns and on which side the waiting thread is.", "quantifier": "all interleavings of handler return, block, complete, request release", "why_tests_cant": "All schedules of three parties.", "anchors": ["src/gbinder_ipc.c:gbinder_remote_request_block", "src/gbinder_ipc.c:gbinder_remote_request_complete", "src/gbinder_ipc.c:gbinder_ipc_looper_tx_handle"]}
{"id": "C28", "title": "Looper pool bookkeeping", "statement": "Each looper thread is in at most one of the primary and blocked lists, the number of primary loopers never exceeds the limit, and when the only primary looper gets blocked by a pending request a new one is created, so incoming transactions can always be served.", "quantifier": "all interleavings of looper start, block, unblock and exit", "why_tests_cant": "Unbounded number of concurrent transactions.", "anchors": ["src/gbinder_ipc.c:gbinder_ipc_looper_transact", "src/gbinder_ipc.c:gbinder_ipc_looper_remove_primary"]}
{"id": "C29", "title": "One remote object per handle", "statement": "While a remote object for a handle is referenced and alive, every lookup of that handle returns the same object, and its death notification is delivered to that object.", "quantifier": "all histories of lookups, unrefs, deaths and handle reuse by the kernel", "why_tests_cant": "Requires long histories with handle reuse.", "anchors": ["src/gbinder_ipc.c:gbinder_ipc_priv_get_remote_object", "src/gbinder_ipc.c:gbinder_ipc_remote_object_disposed", "src/gbinder_remote_object.c:gbinder_remote_object_finalize"]}
{"id": "C30", "title": "Only registered local objects are dereferenced", "statement": "A binder pointer received from the kernel is resolved to a local object only if that object is currently registered and alive; unknown pointers are never dereferenced.", "quantifier": "all histories of object creation and disposal and all pointers delivered", "why_tests_cant": "Stale pointers arise only in rare interleavings.", "anchors": ["src/gbinder_ipc.c:gbinder_ipc_priv_get_local_object", "src/gbinder_ipc.c:gbinder_ipc_local_object_disposed"]}
{"id": "C31", "title": "Death is reported exactly once", "statement": "For each life of a remote object the death signal is emitted at most once, gbinder_remote_object_is_dead() is TRUE from then on (until the service manager object is reanimated), and the strong reference and death registration are released exactly once.", "quantifier": "all sequences of death notifications, suicides, reanimations and final unref", "why_tests_cant": "Duplicate and late notifications in all orders.", "anchors": ["src/gbinder_remote_object.c"]}
{"id": "C32", "title": "Strong references of local objects are balanced", "statement": "Local object strong reference count equals the number of BR_ACQUIRE minus BR_RELEASE handled and never goes below zero; the acquired callback pattern keeps the object alive while the count is positive.", "quantifier": "all interleavings of acquire and release", "why_tests_cant": "Unbounded histories.", "anchors": ["src/gbinder_local_object.c:gbinder_local_object_default_acquire", "src/gbinder_local_object.c:gbinder_local_object_default_release"]}
{"id": "C33", "title": "Dispatch of built-in transactions", "statement": "Ping, interface query and HIDL introspection transactions are answered by the library on the looper thread without invoking the user handler; all other codes go to the user handler on the main thread when one is set and fail otherwise; the HIDL interface chain reported ends with android.hidl.base@1.0::IBase and is exactly the registered list.", "quantifier": "all transaction codes, interfaces and registered interface lists", "why_tests_cant": "2^32 codes times all interface names.", "anchors": ["src/gbinder_local_object.c:gbinder_local_object_default_can_handle_transaction", "src/gbinder_local_object.c:gbinder_local_object_init_base"]}
{"id": "C34", "title": "FMQ synchronized queue is FIFO", "statement": "For a synchronized FMQ with one reader and one writer, the items returned by successful gbinder_fmq_read calls are exactly the items passed to successful gbinder_fmq_write calls, in order, without loss, duplication or overwriting of unread items, under every interleaving of the two sides.", "quantifier": "all item sizes, capacities, all interleavings of begin/copy/end steps of reader and writer", "why_tests_cant": "Interleavings and wrap-around positions are unbounded.", "anchors": ["src/gbinder_fmq.c"]}
{"id": "C35", "title": "FMQ accesses stay inside the ring", "statement": "gbinder_fmq_read and gbinder_fmq_write only touch bytes within the data region and succeed only when enough items (space) are available.", "quantifier": "all pointer values, capacities, item sizes and requested counts", "why_tests_cant": "Requested count times item size may overflow.", "anchors": ["src/gbinder_fmq.c:gbinder_fmq_begin_read", "src/gbinder_fmq.c:gbinder_fmq_begin_write"]}
{"id": "C36", "title": "FMQ unsynchronized writer stores what was passed", "statement": "After a successful gbinder_fmq_write on an unsynchronized queue the last written items in ring order are exactly the items passed; a reader that was overrun skips to the write position instead of returning torn data.", "quantifier": "all capacities and histories of writes and reads", "why_tests_cant": "Only specific combinations of read and write positions wrap wrongly.", "anchors": ["src/gbinder_fmq.c:gbinder_fmq_write", "src/gbinder_fmq.c:gbinder_fmq_available_to_write_bytes"]}
{"id": "C37", "title": "FMQ memory layout", "statement": "The read counter, write counter, ring data and event flag described by the grantors of a newly created queue are pairwise disjoint and inside the allocated shared memory, and 8-byte aligned.", "quantifier": "all item sizes, counts and flag combinations whose size fits the descriptor fields", "why_tests_cant": "Unbounded sizes.", "anchors": ["src/gbinder_fmq.c:gbinder_fmq_create_grantors", "src/gbinder_fmq.c:gbinder_fmq_new"]}
{"id": "C38", "title": "FMQ event flags are not lost", "statement": "Every event bit set by gbinder_fmq_wake is returned by exactly one gbinder_fmq_wait call whose mask contains it; wait returns only bits of its mask and never touches others.", "quantifier": "all interleavings of wakes and waits and all masks", "why_tests_cant": "Atomic interleavings.", "anchors": ["src/gbinder_fmq.c:gbinder_fmq_wait_timeout", "src/gbinder_fmq.c:gbinder_fmq_wake"]}
{"id": "C39", "title": "Waiting for the service manager is bounded", "statement": "gbinder_servicemanager_wait(sm, ms) with ms >= 0 sleeps at most ms in total, sleeps exactly ms when it reports a timeout, never sleeps when the manager is present, and with ms < 0 returns only when the manager appears; intervals between checks never exceed 1000 ms.", "quantifier": "all timeouts and all times at which the service manager appears", "why_tests_cant": "Unbounded timeouts.", "anchors": ["src/gbinder_servicemanager.c:gbinder_servicemanager_wait"]}
{"id": "C40", "title": "Presence polling while the service manager is dead", "statement": "While the service manager is dead exactly one presence timer is pending, its period grows from 100 to at most 1000 ms, and once the manager is back the presence signal is emitted once and polling stops.", "quantifier": "all sequences of deaths, failed and successful checks", "why_tests_cant": "Unbounded histories.", "anchors": ["src/gbinder_servicemanager.c:gbinder_servicemanager_presense_check_timer", "src/gbinder_servicemanager.c:gbinder_servicemanager_died"]}
{"id": "C41", "title": "Registration watches follow handlers", "statement": "A name is being watched with the service manager exactly when the manager is alive and at least one registration handler for that (normalized) name is connected.", "quantifier": "all sequences of add/remove handler, death and reappearance", "why_tests_cant": "Arbitrary histories.", "anchors": ["src/gbinder_servicemanager.c:gbinder_servicemanager_add_registration_handler", "src/gbinder_servicemanager.c:gbinder_servicemanager_remove_handlers", "src/gbinder_servicemanager.c:gbinder_servicemanager_reanimated"]}
{"id": "C42", "title": "HIDL name normalisation", "statement": "For HIDL service managers a handler registered for 'iface/instance' or 'iface' receives registrations of every instance of that iface; names with disallowed characters are rejected; normalisation is idempotent.", "quantifier": "all names", "why_tests_cant": "Infinite strings.", "anchors": ["src/gbinder_servicemanager_hidl.c:gbinder_servicemanager_hidl_check_name", "src/gbinder_servicemanager_hidl.c:gbinder_servicemanager_hidl_normalize_name", "src/gbinder_servicemanager.c:gbinder_servicemanager_service_registered"]}
{"id": "C43", "title": "Service poll reports exactly the new names", "statement": "Each poll emits 'name added' exactly for the names in the new list that were not in the previous one, once each, and is_known_name reflects the last list.", "quantifier": "all sequences of service lists", "why_tests_cant": "All pairs of lists of any size.", "anchors": ["src/gbinder_servicepoll.c:gbinder_servicepoll_list"]}
{"id": "C44", "title": "Service name registration is retried until it succeeds", "statement": "While a GBinderServiceName exists and the service manager is present, the name is registered or exactly one of a pending add-service call and a retry timer exists; while the manager is absent there is neither; after the last unref there is neither.", "quantifier": "all sequences of presence changes, call completions, timer expirations", "why_tests_cant": "Unbounded histories of failures and restarts.", "anchors": ["src/gbinder_servicename.c"]}
{"id": "C45", "title": "Client picks the right interface", "statement": "For a client created with several interface ranges, the RPC header used for a transaction code is the one of the range with the smallest last_code not less than the code, in whatever order the ranges were given; codes above every range are refused.", "quantifier": "all sets of ranges and all codes", "why_tests_cant": "All permutations and codes.", "anchors": ["src/gbinder_client.c:gbinder_client_new2", "src/gbinder_client.c:gbinder_client_find_range"]}
{"id": "C46", "title": "No transaction is sent to a dead object", "statement": "A client whose remote object is dead submits nothing to the driver and reports failure (NULL reply, id 0, negative status) for each kind of call; synchronous service registration never reports success unless the service manager replied.", "quantifier": "all client states and calls", "why_tests_cant": "Status must be defined on every path.", "anchors": ["src/gbinder_client.c", "src/gbinder_servicemanager_aidl.c:gbinder_servicemanager_aidl_add_service", "src/gbinder_servicemanager_hidl.c:gbinder_servicemanager_hidl_add_service"]}
{"id": "C47", "title": "Cleanup callbacks run exactly once", "statement": "Every destroy callback registered with gbinder_local_request_cleanup / gbinder_writer_add_cleanup (and every buffer allocated by the writer) runs exactly once, in registration order, when the request or reply is freed or its contents replaced.", "quantifier": "all histories of cleanup registration, reset and free", "why_tests_cant": "Unbounded histories.", "anchors": ["src/gbinder_cleanup.c", "src/gbinder_writer.c:gbinder_writer_add_cleanup"]}
{"id": "C48", "title": "Configuration precedence", "statement": "For each device the effective protocol (service manager type) is: the value from the alphabetically last configuration file that sets it to a known value, else the preset of the highest API level not above the configured one, else the built-in default for the device, else the configured default, else aidl; presets never override explicit settings.", "quantifier": "all sets of configuration files, keys and values", "why_tests_cant": "Unbounded configurations.", "anchors": ["src/gbinder_config.c", "src/gbinder_rpc_protocol.c:gbinder_rpc_protocol_for_device", "src/gbinder_servicemanager.c:gbinder_servicemanager_new2"]}
{"id": "C49", "title": "File descriptors are neither leaked nor double closed", "statement": "append_fd stores a duplicate of the descriptor which is closed exactly once when the parcel is freed; descriptors received in a buffer are closed exactly once when the buffer contents are released.", "quantifier": "all append and release histories", "why_tests_cant": "Depends on ownership over histories.", "anchors": ["src/gbinder_writer.c:gbinder_writer_data_append_fd", "src/gbinder_driver.c:gbinder_driver_close_fds", "src/gbinder_buffer.c"]}
{"id": "C50", "title": "Bridged requests are completed and translated", "statement": "A request received by a proxy object is forwarded with the same transaction code and flags in the wire format of the destination protocol, and is completed exactly once with the translated reply or an error, without touching freed memory.", "quantifier": "all requests, replies, protocols and destruction orders", "why_tests_cant": "Lifetime and protocol combinations.", "anchors": ["src/gbinder_proxy_object.c", "src/gbinder_remote_request.c:gbinder_remote_request_convert_to_local", "src/gbinder_bridge.c"]}
{"id": "C51", "title": "One IPC object per device and protocol", "statement": "While a GBinderIpc for a device and protocol is referenced, every gbinder_ipc_new for the same pair returns the same object; after disposal a new one is created; the disposal race with a concurrent lookup never yields a freed object.", "quantifier": "all interleavings of new, ref, unref, dispose", "why_tests_cant": "Race between dispose and lookup.", "anchors": ["src/gbinder_ipc.c:gbinder_ipc_new", "src/gbinder_ipc.c:gbinder_ipc_dispose"]}
{"id": "C52", "title": "AIDL service list paging", "statement": "The list returned by the aidl service manager is exactly the sequence of names returned by the peer for indexes 0,1,2,... up to the first missing one, and the request asks for just that. Where the peer replies with the whole list, the list returned is the one in the reply.", "quantifier": "all service manager contents", "why_tests_cant": "Unbounded lists.", "anchors": ["src/gbinder_servicemanager_aidl.c:gbinder_servicemanager_aidl_list", "src/gbinder_servicemanager_aidl3.c:gbinder_servicemanager_aidl3_list"]}
{"id": "C53", "title": "No uninitialised memory is sent", "statement": "The bytes of an outgoing parcel are determined by the calls that made it: nothing that was in memory before (the content of newly allocated array space) can end up in what is sent to another process.", "quantifier": "all sequences of writer calls, all states of memory, all contents of uninitialised memory", "why_tests_cant": "A test sees one content of the heap; leaks of stale bytes through padding show only for particular lengths.", "anchors": ["src/gbinder_writer.c:gbinder_writer_data_append_padded", "src/gbinder_writer.c:gbinder_writer_data_append_string8_len", "src/gbinder_writer.c:gbinder_writer_append_byte_array"]}
{"id": "C54", "title": "Writing never stores outside of the parcel", "statement": "No sequence of gbinder_writer_* calls stores outside of the space allocated for the parcel.", "quantifier": "all sequences of writer calls and all array capacities", "why_tests_cant": "Allocators round sizes up, so small overruns go unnoticed in tests.", "anchors": ["src/gbinder_writer.c:gbinder_writer_data_append_fda_object", "src/gbinder_io.h:GBINDER_MAX_BINDER_OBJECT_SIZE"]}
{"id": "C55", "title": "The kernel is told what the caller asked for", "statement": "The command a transaction or reply is sent with carries the given handle, code, one-way flag, the address and size of the payload and the complete table of object offsets, in the layout of the ABI in use.", "quantifier": "all handles, codes, parcels, both ABIs", "why_tests_cant": "Field layouts and sizes must be right for all values and both ABIs; tests run on one.", "anchors": ["src/gbinder_io.c", "src/gbinder_driver.c:gbinder_driver_transact", "src/gbinder_driver.c:gbinder_driver_reply_data"]}
{"id": "C56", "title": "Only complete commands are written to the driver", "statement": "Everything written to the binder device is a known command followed by exactly as much data as its code announces; when the kernel consumes only a part of what it was given, the rest is written from where it stopped, so that no byte is written twice and none is skipped.", "quantifier": "all calls, all answers of the kernel, both ABIs", "why_tests_cant": "Depends on how much the kernel takes with every ioctl; tests run against a driver which takes everything.", "anchors": ["src/gbinder_driver.c:gbinder_driver_cmd", "src/gbinder_driver.c:gbinder_driver_write_read", "src/gbinder_driver.c:gbinder_driver_txstatus"]}
{"id": "C57", "title": "Data is never taken for an object", "statement": "gbinder_reader_read_fd, gbinder_reader_read_nullable_object and gbinder_reader_read_buffer succeed exactly if the next entry of the validated offset table points at the current position and the object found there is of that kind; plain data which looks like an object, or an object which the table doesn't announce, is refused.", "quantifier": "all received bytes, all offset tables, all positions of the reader, both ABIs", "why_tests_cant": "An attacker chooses the bytes; tests try the encodings they know of.", "anchors": ["src/gbinder_reader.c:gbinder_reader_read_fd", "src/gbinder_reader.c:gbinder_reader_read_nullable_object", "src/gbinder_reader.c:gbinder_reader_read_buffer"]}
{"id": "C58", "title": "A registration handler is told about the service", "statement": "If a registration handler has been added with an AIDL service manager and hasn't been called yet, and its service name is in the last list of services received from the service manager (or in the one being processed), then the handler is going to be called: either its notification is pending in the event loop, or the name is yet to be announced.", "quantifier": "every sequence of additions and removals of handlers, lists of services received, and callbacks in between", "why_tests_cant": "Whether the notification is lost depends on when the handler is added relative to the polls and to the other handlers for the same name.", "anchors": ["src/gbinder_servicepoll.c:gbinder_servicepoll_list", "src/gbinder_servicemanager_aidl.c:gbinder_servicemanager_aidl_watch_new", "src/gbinder_servicemanager.c:gbinder_servicemanager_add_registration_handler"]}
{"id": "C59", "title": "The service manager hears about what is registered", "statement": "When a service is registered with any type of service manager, the service manager which receives the transaction finds the name given by the caller and a reference to the very object (a handle which the kernel has assigned to it), after the header with the interface of the service manager; there is nothing else in the request except for the flags of that version.", "quantifier": "all names, all objects, all service manager and protocol versions, both ABIs, all states of memory", "why_tests_cant": "Tests compare the bytes with what they expect for one name, no kernel translates the objects.", "anchors": ["src/gbinder_servicemanager_aidl.c:gbinder_servicemanager_aidl_add_service_req", "src/gbinder_servicemanager_aidl4.c:gbinder_servicemanager_aidl4_add_service_req", "src/gbinder_servicemanager_hidl.c:gbinder_servicemanager_hidl_add_service"]}
{"id": "C60", "title": "Looking up a service returns the object found by the service manager", "statement": "When a service is looked up, the service manager receives exactly the name given by the caller (for HIDL, the interface before the first slash and the instance after it; without a slash nothing is sent); the object returned to the caller is the one the kernel has put into the reply at the place used by that version of the service manager, and NULL if there is none.", "quantifier": "all names, all replies (whatever bytes and offset tables), all service manager and protocol versions", "why_tests_cant": "All replies, including malformed ones.", "anchors": ["src/gbinder_servicemanager_aidl.c:gbinder_servicemanager_aidl_get_service", "src/gbinder_servicemanager_aidl3.c:gbinder_servicemanager_aidl3_get_service", "src/gbinder_servicemanager_hidl.c:gbinder_servicemanager_hidl_get_service"]}
{"id": "C61", "title": "A bridge publishes what is there and only while it is there", "statement": "A bridge publishes a proxy for each of its interfaces under the name given to it as soon as the object on the other side is found (when the bridge is created, or when the other side announces it); the proxy sends requests to that object. Once the object dies, the proxy is withdrawn and everything is released, and the next object is published when it appears. Freeing the bridge withdraws and releases everything, and no handler runs afterwards. Nothing is used after it has been freed.", "quantifier": "all histories of bridges being created and freed, objects appearing, dying and being referenced by others, in any order relative to the notifications", "why_tests_cant": "Depends on the order of notifications, which are asynchronous.", "anchors": ["src/gbinder_bridge.c:gbinder_bridge_new2", "src/gbinder_bridge.c:gbinder_bridge_interface_activate", "src/gbinder_bridge.c:gbinder_bridge_interface_deactivate", "src/gbinder_bridge.c:gbinder_bridge_free"]}
{"id": "C62", "title": "Callbacks and timeouts", "statement": "A callback is called at most once, by the main loop, and never after it has been cancelled (unless it was running already); its data is finalized exactly once, not before the function has returned, whether or not it was called; what was to be invoked later is invoked exactly once and then finalized. A timeout is not called after it has been removed or after its function has asked not to be called again, and its memory is freed exactly once. Every object is handled by the event loop integration which was in use when the object was created, and an integration is told when it is replaced.", "quantifier": "all interleavings of calls from any threads with what the main loop is doing, including calls made by the functions being called", "why_tests_cant": "Depends on the exact moment at which a callback is cancelled or released relative to its invocation.", "anchors": ["src/gbinder_eventloop.c", "include/gbinder_eventloop.h:gbinder_eventloop_set"]}
{"id": "C63", "title": "Notifications about registered HIDL services", "statement": "A client which watches a name at the HIDL service manager sends a request in which the service manager finds the name, an empty instance name and the callback object. A notification sent to that object is reported to the registration handlers as interface/instance, exactly if it is the right method with the right arguments; whatever else is sent to the object does no harm. The object keeps passing notifications on until the name is unwatched or watched again, the service manager refuses the request, or the GBinderServiceManager is gone, and not afterwards. At most one object is waiting for a name. Nothing is used after it has been freed, and everything is freed in the end.", "quantifier": "all names, instances, memory contents and payloads; all interleavings of watching, unwatching, transactions executed by pool threads, incoming notifications and finalization", "why_tests_cant": "Depends on when the asynchronous transaction is executed and completed relative to unwatching, and on what the peer sends.", "anchors": ["src/gbinder_servicemanager_hidl.c:gbinder_servicemanager_hidl_watch", "src/gbinder_servicemanager_hidl.c:gbinder_servicemanager_hidl_notification", "src/gbinder_servicemanager_hidl.c:gbinder_servicemanager_hidl_watch_call_reply", "src/gbinder_servicemanager_hidl.c:gbinder_servicemanager_hidl_watch_free"]}
{"id": "C64", "title": "A call arrives as it was made", "statement": "A request is created with gbinder_client_new_request, any number of values, strings, vectors, objects and descriptors are appended to it, and it is sent with gbinder_client_transact. The process which owns the object behind the handle is told the transaction code, whether the call is one-way and who has sent it; the call is for that very object and carries the interface of the client; the matching read calls return what was appended, in the same order, after which nothing is left. What the object appends to its reply is, likewise, what the client reads from it, and a status which is returned instead of a reply is the one the client gets. If an object was passed along, a call made with what was read in its place is for that object.", "quantifier": "all sequences of items and their contents, all interfaces, handles and codes, protocols and ABIs, addresses and memory contents, and whatever the kernel chooses (addresses, handles, descriptors)", "why_tests_cant": "tests run both ends in one process with a simulated driver, for one sequence of arguments at a time", "anchors": ["src/gbinder_client.c:gbinder_client_transact", "src/gbinder_writer.c", "src/gbinder_reader.c", "src/gbinder_io.c:fill_transaction_data", "src/gbinder_io.c:decode_transaction_data", "src/gbinder_driver.c:gbinder_driver_handle_transaction", "src/gbinder_remote_request.c:gbinder_remote_request_set_data", "src/gbinder_remote_reply.c:gbinder_remote_reply_init_reader"]}
{"id": "C65", "title": "Devices are opened and closed", "statement": "A binder device is opened exactly if the kernel lets it be opened and mapped and reports one of the two supported versions of the interface, and the version determines the layout of what is exchanged with it; a failed attempt leaves nothing behind. Each descriptor and each mapping is released exactly once, when the last one who refers to the device lets go of it, and neither is used afterwards, even if the number of the descriptor is reused by the application. What has been received through the device stays readable as long as the request or reply it belongs to exists, even when everything else is gone.", "quantifier": "all histories of any number of devices being opened (successfully or not), used, received from and let go of by GBinderIpc, loopers and buffers in any order, with other descriptors of the process being opened and closed in between", "why_tests_cant": "depends on who is the last one to let go, and on which numbers the kernel reuses", "anchors": ["src/gbinder_driver.c:gbinder_driver_new", "src/gbinder_driver.c:gbinder_driver_unref", "src/gbinder_driver.c:gbinder_driver_close", "src/gbinder_buffer.c", "src/gbinder_ipc.c:gbinder_ipc_looper_join"]}
{"id": "C66", "title": "One service manager for a kind and a device", "statement": "gbinder_servicemanager_new, gbinder_servicemanager_new2 and their relatives return a manager of the kind, for the device and with the protocol which have been asked for. While somebody has a reference to such a manager, everybody who asks for it gets the same one; otherwise a new one is created. A manager is not freed while somebody has a reference to it, it is freed when the last reference is dropped, and neither the manager nor the table where it is kept is used after having been freed.", "quantifier": "all sequences of gbinder_servicemanager_new (any kind, device, protocol, and whether the device can be opened), ref and unref, done by any number of threads, with the last unref of a manager taken apart into the steps which other threads can get in between", "why_tests_cant": "The outcome depends on the order in which the classes are used for the first time, on what else exists at that moment, and on what other threads do between the steps of g_object_unref; tests use one class and one device at a time.", "anchors": ["src/gbinder_servicemanager.c: gbinder_servicemanager_new_with_type, gbinder_servicemanager_new2, gbinder_servicemanager_dispose, gbinder_servicemanager_finalize, gbinder_servicemanager_class_ref", "src/gbinder_servicemanager_p.h: GBinderServiceManagerClass"]}
{"id": "C67", "title": "Asynchronous calls to the service manager deliver their results once and clean up after themselves", "statement": "For every call to gbinder_servicemanager_list, gbinder_servicemanager_get_service or gbinder_servicemanager_add_service which returns a non-zero identifier, the service manager is asked once at most, for exactly what the caller has asked for; the callback gets exactly what the service manager has returned, once at most, never after gbinder_servicemanager_cancel, and (unless the process is exiting) it's called unless the call is cancelled. The list of names is freed exactly once, unless the callback has returned TRUE, in which case the library never touches it again. The service manager and the object being added stay referenced until the call is over, the object which has been found is released, and all references are balanced. NULL service manager, callback or name: nothing happens.", "quantifier": "all numbers of calls of all kinds, all interleavings of the worker threads, cancellations, completions and calls made from the callbacks, all results", "why_tests_cant": "The completion races with the cancellation and with the worker threads; a test observes a few schedules and doesn't see leaks and double frees of the others.", "anchors": ["src/gbinder_servicemanager.c: gbinder_servicemanager_list, gbinder_servicemanager_get_service, gbinder_servicemanager_add_service, gbinder_servicemanager_cancel, gbinder_servicemanager_list_tx_exec, gbinder_servicemanager_list_tx_done, gbinder_servicemanager_list_tx_free, gbinder_servicemanager_get_service_tx_exec, gbinder_servicemanager_get_service_tx_done, gbinder_servicemanager_get_service_tx_free, gbinder_servicemanager_add_service_tx_exec, gbinder_servicemanager_add_service_tx_done, gbinder_servicemanager_add_service_tx_free", "src/gbinder_ipc.c: gbinder_ipc_transact_custom, gbinder_ipc_cancel, gbinder_ipc_tx_proc, gbinder_ipc_tx_done, gbinder_ipc_tx_free"]}
{"id": "C68", "title": "Objects returned without a reference", "statement": "An object returned by gbinder_servicemanager_get_service_sync, which the caller does not release, stays valid until the caller gets back to the event loop or drops the service manager; it is then released, exactly once for each time it was returned, and nothing remains of it or of the callback that did it.", "quantifier": "all sequences of lookups (of any objects, any number of times), iterations of the event loop, and finalization of the manager, including lookups made while objects are being released", "why_tests_cant": "Leaks and premature releases depend on how lookups, callbacks and finalization follow each other; tests drop the manager at once.", "anchors": ["src/gbinder_servicemanager.c: gbinder_servicemanager_get_service_sync, gbinder_servicemanager_autorelease_cb, gbinder_servicemanager_finalize", "src/gbinder_eventloop.c: gbinder_idle_callback_schedule_new, gbinder_idle_callback_destroy"]}
{"id": "C69", "title": "What a fast message queue takes is returned", "statement": "gbinder_fmq_new returns a queue exactly if the arguments make sense and the memory can be created, and NULL otherwise. The queue exists until the last reference to it is dropped and is then freed once; everything which was allocated, mapped or opened for it is given back then and not before, and when NULL is returned there is nothing to be given back. Nothing is unmapped except what has been mapped, and nothing is used after it has been freed.", "quantifier": "all sequences of gbinder_fmq_new (any arguments, any outcome of memfd_create, ftruncate and mmap), gbinder_fmq_ref and gbinder_fmq_unref of any number of queues, any size of a page", "why_tests_cant": "System calls don't fail in tests, and leaks are not seen.", "anchors": ["src/gbinder_fmq.c: gbinder_fmq_new, gbinder_fmq_ref, gbinder_fmq_unref, gbinder_fmq_free, gbinder_fmq_map_grantor_descriptor, gbinder_fmq_unmap_grantor_descriptor"]}
{"id": "C70", "title": "Clients, and asynchronous calls made with them", "statement": "gbinder_client_transact returns zero exactly if there is no client, its remote object is dead, or no request is given and the code is in none of the ranges of the client. Otherwise the transaction is performed once at most, for the handle of the remote object of the client, with the code and the flags of the call and the given request, or else the default one of the first range which contains the code. The reply callback is called once at most, with the client and the pointer of the call and exactly the reply and the status which the transaction has produced; it is called unless the call is cancelled or the process is exiting, and it is not called after gbinder_client_cancel. After that the destroy callback is called exactly once with the same pointer, and nothing else happens to the call. The client, its remote object, its default requests, the request and the reply are kept alive by the call while it needs them, no matter what the application drops; all of them are freed exactly once, not while the application has a reference to them, and none is left when the application has dropped its references and the calls are over.", "quantifier": "all histories of any number of remote objects, clients, requests and calls: all interleavings of calls, cancellations, references being taken and dropped (from the callbacks too), remote objects dying, worker threads, completions and results", "why_tests_cant": "Who drops the last reference depends on the schedule, and tests see a few schedules and neither leaks nor premature releases in the others.", "anchors": ["src/gbinder_client.c: gbinder_client_new2, gbinder_client_ref, gbinder_client_unref, gbinder_client_free, gbinder_client_transact, gbinder_client_transact_reply, gbinder_client_transact_destroy, gbinder_client_cancel, gbinder_client_find_range", "src/gbinder_ipc.c: gbinder_ipc_transact, gbinder_ipc_tx_internal_new, gbinder_ipc_tx_internal_exec, gbinder_ipc_tx_internal_done, gbinder_ipc_tx_internal_free, gbinder_ipc_tx_proc, gbinder_ipc_cancel"]}
{"id": "C71", "title": "Reading from requests and replies directly", "statement": "gbinder_remote_request_read_* and gbinder_remote_reply_read_* return what the peer has appended first (after the header, which is not seen), no matter how many of them have been called before; gbinder_remote_request_interface and the functions which tell who the sender is return what belongs to the request. gbinder_local_request_append_* and gbinder_local_reply_append_* put the same into the parcel as the functions of the writer. If nothing has been received then nothing can be read, and a reply is empty exactly then. Whatever has been received, nothing outside of it is looked at. NULL is accepted everywhere and means that there is nothing.", "quantifier": "all interfaces, protocols, ABIs, sequences of values and objects, everything the kernel may choose; all received bytes and object lists", "why_tests_cant": "Tests read a few values of their own; what matters is any data received from another process.", "anchors": ["src/gbinder_remote_request.c: gbinder_remote_request_read_int32 and the other read functions, gbinder_remote_request_init_reader, gbinder_remote_request_interface, gbinder_remote_request_sender_pid", "src/gbinder_remote_reply.c: gbinder_remote_reply_read_int32 and the other read functions, gbinder_remote_reply_is_empty", "src/gbinder_local_request.c: gbinder_local_request_append_int32 and the other append functions", "src/gbinder_local_reply.c: gbinder_local_reply_append_int32 and the other append functions"]}
{"id": "C72", "title": "Calls return", "statement": "A call which sends a transaction returns when the kernel has said how the transaction has ended (and a reply which is being sent in the meantime has been handled); a thread which reads commands returns when it has handled those which have been delivered. While they don't return they are waiting for the kernel, all that has been delivered has been acted upon, and the kernel hasn't said anything about the end of the transaction. The library doesn't go on without the kernel forever.", "quantifier": "all worlds (what the kernel, the objects and the application do), requests, handles, codes and one-way flags; all streams of commands and the ways of delivering them in pieces", "why_tests_cant": "A call which never returns depends on what the kernel says and how it's split; tests make the kernel say what the test expects, and waiting forever can't be observed by a test.", "anchors": ["src/gbinder_driver.c: gbinder_driver_transact, gbinder_driver_read, gbinder_driver_txstatus, gbinder_driver_write_read, gbinder_driver_handle_commands, gbinder_driver_handle_transaction"]}
{"id": "C73", "title": "Threads of the library are joined", "statement": "No thread which handles incoming transactions is joined twice, and none is joined which hasn't been created. When an application is done with the IPC (its threads are stopped), each of those threads has ended and has been joined, except the calling one if it's one of them. Dropping a reference doesn't make anyone wait for a running thread. A thread which has ended is joined eventually, so that it doesn't keep its stack.", "quantifier": "all histories of any number of loopers: all interleavings of starting, transactions which block and continue, loopers exiting on their own or being stopped, references being dropped, and failures to create threads", "why_tests_cant": "Threads which are never joined aren't noticed by tests, and creating a thread doesn't fail there.", "anchors": ["src/gbinder_ipc.c: gbinder_ipc_looper_new, gbinder_ipc_looper_free, gbinder_ipc_looper_unref, gbinder_ipc_looper_thread, gbinder_ipc_looper_join, gbinder_ipc_stop_loopers, gbinder_ipc_looper_check, gbinder_ipc_looper_transact"]}
{"id": "C74", "title": "Locks don't cause deadlocks and aren't held while the application's code runs", "statement": "Whatever functions threads of the application and threads of the library call at the same time, a thread which waits for a mutex gets a chance to lock it as soon as those who hold mutexes have had time to go on; mutexes are unlocked when functions return, never locked twice by the same thread and not held while the application's callbacks are invoked or other threads are waited for. A looper which has been told to stop ends even if the thread which has stopped it does nothing but wait.", "quantifier": "Any number of threads, any sequences of functions called by them (including those called from callbacks), any number of GBinderIpc objects, loopers and service managers, all schedules.", "why_tests_cant": "A deadlock takes a particular interleaving of several threads, most of which never occur in a test.", "anchors": ["src/gbinder_ipc.c: gbinder_ipc_looper_check, gbinder_ipc_looper_new, gbinder_ipc_looper_start, gbinder_ipc_looper_thread, gbinder_ipc_looper_join, gbinder_ipc_stop_loopers, gbinder_ipc_priv_get_remote_object, gbinder_ipc_exit, gbinder_ipc_tx_handler_transact", "src/gbinder_remote_object.c: gbinder_remote_object_new", "src/gbinder_servicemanager.c: gbinder_servicemanager_new_with_type, gbinder_servicemanager_dispose"]}
{"id": "C75", "title": "Process exit", "statement": "When the process exits, asynchronous calls which are being made are waited for, the destroy callback of every asynchronous call which hasn't completed is invoked exactly once (never twice, whatever the callbacks do), references to local objects held on behalf of other processes are dropped and the objects which nobody else references are freed, once. Nothing which has been freed is accessed, it never gets stuck, except that it waits for the calls which are being made, and it ends.", "quantifier": "Any number of devices, asynchronous calls in any state and local objects with any number of references; any point at which the process exits, including from a callback; anything that the destroy callbacks may do; all orders in which the hash tables are traversed, and all schedules of the threads which make the calls.", "why_tests_cant": "Tests exit the process when there is nothing left to do; what is outstanding at that point depends on the schedule.", "anchors": ["src/gbinder_ipc.c: gbinder_ipc_exit, gbinder_ipc_tx_done, gbinder_ipc_tx_free, gbinder_ipc_tx_proc, gbinder_ipc_transact, gbinder_ipc_transact_custom", "src/gbinder_local_object.c: gbinder_local_object_default_acquire, gbinder_local_object_default_release"]}
{"id": "C76", "title": "Objects used by other processes stay alive", "statement": "A local object which has been sent to another process stays alive, at the same address, and can be called as long as any process has a strong reference to it, even if the application has dropped its own references. Every BR_ACQUIRE and BR_RELEASE which the kernel sends is handled by that very object. When nobody has references anymore, the object is freed.", "quantifier": "Any number of other processes acquiring, releasing, freeing buffers, passing the object on and calling it at any time; any number of threads which send the object in requests and replies; all interleavings of those with the handling of commands from the kernel, the main thread and the application.", "why_tests_cant": "Whether an object survives depends on the order in which several processes, several threads and the kernel do things; unit tests run in a single process and simulate the kernel with a socket.", "anchors": ["src/gbinder_driver.c: gbinder_driver_handle_command, gbinder_driver_transact, gbinder_driver_handle_transaction, gbinder_driver_acquire_done", "src/gbinder_local_object.c: gbinder_local_object_default_acquire, gbinder_local_object_default_release, gbinder_local_object_acquire_done", "src/gbinder_writer.c: gbinder_writer_data_append_local_object", "src/gbinder_ipc.c: gbinder_ipc_find_local_object, gbinder_object_registry_get_local"]}
{"id": "C77", "title": "Handles refer to what they were received for", "statement": "An object received from another process refers to that very thing for as long as it is alive: transactions sent with it never go elsewhere, although the kernel reuses handles. Whoever reads a handle from a buffer gets an object which refers to what the kernel has put into that buffer. An object is declared dead only if what it refers to is dead. The kernel forgets a handle when there are neither live objects nor buffers which use it.", "quantifier": "Any number of handles (reused by the kernel in any order), objects, buffers and remote processes dying at any time; all interleavings of threads which read handles, drop references, free buffers and handle BR_DEAD_BINDER with the main thread.", "why_tests_cant": "It depends on the order in which strong references are acquired and released with respect to buffers being freed and numbers being reused by the kernel; unit tests simulate the kernel and never reuse a handle.", "anchors": ["src/gbinder_ipc.c: gbinder_ipc_get_remote_object, gbinder_ipc_priv_get_remote_object, gbinder_ipc_invalidate_remote_handle, gbinder_ipc_remote_object_disposed", "src/gbinder_remote_object.c: gbinder_remote_object_new, gbinder_remote_object_handle_death_on_main_thread, gbinder_remote_object_commit_suicide, gbinder_remote_object_finalize", "src/gbinder_driver.c: gbinder_driver_acquire, gbinder_driver_release, gbinder_driver_handle_command, gbinder_driver_dead_binder_done", "src/gbinder_proxy_object.c: gbinder_proxy_object_converter_handle_to_local"]}
{"id": "C78", "title": "Calls to bridged objects go where they should", "statement": "When an object received from one device is passed on to a process which uses another device (through a bridge), every call made by that process is delivered to that very object, and never to another one for which the kernel has reused the handle, as long as the process has what it was given or its call hasn't been handled; unless the object is dead or the bridge is gone, then the call is refused. The handle is acquired once while anybody needs it, and it is released when nobody does.", "quantifier": "All interleavings of buffers with the handle being received and freed, messages being forwarded in either direction by any number of threads, kernel commands being read and handled in any order, the main thread, other processes which acquire, release, pass on and call the object at any time, and of the handle being reused by the kernel.", "why_tests_cant": "A call goes to a wrong object only if two devices, several threads and handle reuse in the kernel interleave in a particular way; unit tests have one schedule and simulate the kernel, handles aren't reused.", "anchors": ["src/gbinder_proxy_object.c: gbinder_proxy_object_converter_handle_to_local, gbinder_proxy_object_acquire, gbinder_proxy_object_handle_transaction, gbinder_proxy_object_finalize, gbinder_proxy_tx_destroy", "src/gbinder_local_object.c: gbinder_local_object_handle_acquire, gbinder_local_object_acquire_proc, gbinder_local_object_acquire_done", "src/gbinder_driver.c: gbinder_driver_handle_transaction, gbinder_driver_handle_command, gbinder_driver_transact", "src/gbinder_writer.c: gbinder_writer_data_set_contents", "src/gbinder_buffer.c: gbinder_buffer_contents_list_dup, gbinder_buffer_contents_free"]}
{"id": "C79", "title": "No data races", "statement": "GBinderIpc's, service managers, local and remote objects may be created, looked up and released, and requests handled, by any number of threads at the same time: no two threads ever access the same piece of shared state at the same time (one of them changing it) without being synchronised, and what a function has read is still true when it writes, i.e. nobody else has got in between.", "quantifier": "all numbers of threads, all sequences of calls made by them (including calls made from callbacks and destructors), all schedules", "why_tests_cant": "A data race needs two threads to be at particular places at the same time; tests run one of astronomically many schedules, and a race which doesn't crash goes unnoticed.", "anchors": ["src/gbinder_ipc.c: gbinder_ipc_new, gbinder_ipc_dispose, gbinder_ipc_stop_loopers, gbinder_ipc_looper_check, gbinder_ipc_looper_transact, gbinder_ipc_register_local_object, gbinder_ipc_priv_get_remote_object", "src/gbinder_servicemanager.c: gbinder_servicemanager_new2, gbinder_servicemanager_new_with_type, gbinder_servicemanager_dispose", "src/gbinder_rpc_protocol.c: gbinder_rpc_protocol_for_device", "src/gbinder_config.c: gbinder_config_get", "src/gbinder_driver.c: gbinder_driver_close", "src/gbinder_remote_object.c: gbinder_remote_object_handle_death_on_main_thread"]}
{"id": "C80", "title": "Parcels are those of Android", "statement": "Whatever is written with GBinderWriter (booleans, integers, floating point numbers, strings of all kinds, byte arrays and parcelables, in any sequence) is read by Android's own Parcel class as the very same values, and whatever Android's class reads from a parcel, GBinderReader reads too, as the same value and leaving the same rest; it reads nothing which Android's class doesn't (but NULL stands for parcelables which can't be read, too). The header of a request is accepted by Android's enforceInterface if the interface is the expected one and the arguments are where Android looks for them; the header of a request from Android yields that interface, and the reader starts at the arguments. The same goes for HIDL strings, vectors of plain structures and vectors of strings, whose contents are in separate buffers which the kernel places anywhere: what is appended at one end is what Android's libhwbinder reads at the other end, and what libhwbinder would read is what GBinderReader reads (NULL isn't a HIDL string, Android refuses it). Arrays without elements arrive at Android as NULL, and the other way around NULL arrays are read as empty ones.", "quantifier": "All sequences of values of any length with anything before and after them; all received bytes (less than 2 GB, with the padding of the last string or array); all positions in them; all interface names; all four protocols.", "why_tests_cant": "libgbinder's unit tests check its reader against its own writer and against a few literal parcels; two mistakes which cancel each other pass such tests, for all values and positions but those literals.", "anchors": ["src/gbinder_writer.c: gbinder_writer_append_hidl_string, gbinder_writer_append_hidl_string_copy, gbinder_writer_append_hidl_vec, gbinder_writer_append_hidl_string_vec, gbinder_writer_append_bool, gbinder_writer_append_int8, gbinder_writer_append_int16, gbinder_writer_append_int32, gbinder_writer_append_int64, gbinder_writer_append_string8, gbinder_writer_append_string16, gbinder_writer_append_string16_utf16, gbinder_writer_append_byte_array, gbinder_writer_append_parcelable", "src/gbinder_reader.c: gbinder_reader_read_hidl_string_c, gbinder_reader_read_hidl_vec, gbinder_reader_read_hidl_string_vec, gbinder_reader_read_bool, gbinder_reader_read_uint8, gbinder_reader_read_uint16, gbinder_reader_read_uint32, gbinder_reader_read_uint64, gbinder_reader_read_string8, gbinder_reader_read_nullable_string8, gbinder_reader_read_nullable_string16_utf16, gbinder_reader_read_byte_array, gbinder_reader_read_parcelable", "src/gbinder_rpc_protocol.c: gbinder_rpc_protocol_aidl, gbinder_rpc_protocol_aidl2, gbinder_rpc_protocol_aidl3, gbinder_rpc_protocol_hidl"]}
{"id": "C81", "title": "Message queues shared with another process", "statement": "A synchronized message queue is a FIFO when the process at the other end isn't using libgbinder but follows the rules for such queues (a writer stores only where nothing is unread and then adds the number of bytes to its counter, not more than there is room for; a reader adds the number of bytes it has read to its counter, not more than there are). If libgbinder reads, then what it has read is a prefix of what the other end has written, a read is accepted exactly if there's enough to read, and libgbinder follows the rules for readers: it stores nothing, doesn't touch the write counter and never takes more than there is. If libgbinder writes, then what the other end has taken is a prefix of what has been written, a write is accepted exactly if there's enough room, and libgbinder follows the rules for writers: nothing unread is overwritten, the read counter isn't touched and the queue is never overfull. No access is out of bounds. (Queues of less than 4 GiB, less than 2^64 bytes in total.)", "quantifier": "All sizes of queues and messages; all sequences of reads (writes) of any number of messages; all interleavings of their single steps with whatever the other process does: bytes stored in any order and any number of times, any number of messages published or taken at any time.", "why_tests_cant": "Tests read what libgbinder itself has written, in one process and one after the other; a wrong order of copying and publishing or a counter which means something else for the other end isn't seen by them.", "anchors": ["src/gbinder_fmq.c: gbinder_fmq_read, gbinder_fmq_write, gbinder_fmq_begin_read, gbinder_fmq_end_read, gbinder_fmq_begin_write, gbinder_fmq_end_write, gbinder_fmq_available_to_read, gbinder_fmq_available_to_write"]}
{"id": "C82", "title": "The description of a message queue arrives", "statement": "The description of a queue created with gbinder_fmq_new and appended with gbinder_writer_append_fmq_descriptor is read by Android's own code as that queue: the same message size, the same number of bytes, the same type (synchronized or not), the counters, the messages and the event flag at the very same places in the very same files, and whatever is appended next is what Android reads next.", "quantifier": "All sizes and numbers of messages (less than 4 GiB in total), both types, with or without an event flag and a buffer supplied by the caller; anything appended before and after; all places in memory where the writer's copies and the kernel's copies are; both sizes of pointers.", "why_tests_cant": "The description has three levels of buffers with pointers to each other which the kernel patches, and file descriptors which it replaces; unit tests compare a few bytes written by libgbinder with themselves, there's no kernel and no Android in them.", "anchors": ["src/gbinder_writer.c: gbinder_writer_append_fmq_descriptor, gbinder_writer_data_append_fds, gbinder_writer_data_append_fda_object, gbinder_writer_data_append_buffer_object", "src/gbinder_fmq.c: gbinder_fmq_new, gbinder_fmq_create_grantors", "src/gbinder_io.c: encode_fda_object, encode_buffer_object"]}
{"id": "C83", "title": "File descriptors and native handles arrive", "statement": "A file descriptor appended with gbinder_writer_append_fd is read by Android as the descriptor which the kernel has installed for that file; native handles are read with all their descriptors (each of them being the same file) and integers, and a missing handle as a missing handle. Whatever is appended next is what Android reads next. And the other way around: where Android would have read a structure (or a vector of structures), gbinder_reader_read_hidl_struct (gbinder_reader_read_hidl_vec) returns a pointer, from which the application gets to the very same data by following pointers, and what comes next is found by skipping the remaining buffers.", "quantifier": "All numbers of descriptors and integers and all their values; anything appended before and after; all places in memory; both sizes of pointers.", "why_tests_cant": "There's no kernel and no Android in the unit tests, the expected bytes are those which libgbinder happens to write.", "anchors": ["src/gbinder_writer.c: gbinder_writer_data_append_fd, gbinder_writer_data_append_fds, gbinder_writer_data_append_fda_object", "src/gbinder_io.c: encode_fd_object, encode_fda_object"]}
{"id": "C84", "title": "Structures arrive with everything they point to", "statement": "A structure appended with gbinder_writer_append_struct, or a vector of structures appended with gbinder_writer_append_struct_vec, is read by Android as the same structure: the same plain data, the same bytes behind each of its pointers, the same strings, the same number of elements in its vectors and the same structures in them, no matter how deep vectors are nested. Whatever is appended next is what Android reads next.", "quantifier": "All types with any number of fields (strings, vectors and pointers to data of a known size) which don't overlap, nested to any depth; all contents; any number of elements (less than 4 GiB in a buffer); anything appended before and after; all places in memory; both sizes of pointers.", "why_tests_cant": "Each level of a structure adds pointers which the kernel patches using parent indices and offsets calculated by libgbinder; tests have a few small types and look at the number and the sizes of the objects, there's no kernel and no Android to follow the pointers.", "anchors": ["src/gbinder_writer.c: gbinder_writer_append_struct, gbinder_writer_append_struct_vec, gbinder_writer_data_append_buffer_object, gbinder_writer_field_hidl_vec_write_buf, gbinder_writer_field_hidl_string_write_buf", "include/gbinder_writer.h: gbinder_writer_append_struct, gbinder_writer_append_struct_vec, GBinderWriterType, GBinderWriterField", "src/gbinder_io.c: encode_buffer_object"]}
{"id": "C85", "title": "Android's service managers understand what they are asked", "statement": "With the protocol and the kind of service manager which libgbinder chooses for an API level, the service manager of that release of Android is called with what the caller of gbinder_servicemanager_add_service, gbinder_servicemanager_get_service and gbinder_servicemanager_list has given: the name, the object (as a handle of that very object), the default flags, nothing missing and nothing left over. So is hwservicemanager, also by gbinder_servicemanager_add_registration_handler. And a reply which refers to an object for Android's own clients refers to the same object for libgbinder; if it refers to none there's no object. The list of services consists of the names with which the service manager has replied. When hwservicemanager calls back to tell that a service has been registered, that very name is reported, and whether it has accepted the callback is understood.", "quantifier": "All API levels (hence all releases); all names; all objects; both sizes of pointers; all places in memory; all replies.", "why_tests_cant": "The format of the requests has changed with nearly every release of Android; unit tests have a service manager written by the authors of libgbinder which reads whatever libgbinder writes.", "anchors": ["src/gbinder_servicemanager_aidl.c: gbinder_servicemanager_aidl_get_service, gbinder_servicemanager_aidl_list", "src/gbinder_servicemanager_aidl2.c: gbinder_servicemanager_aidl2_list_services_req, gbinder_servicemanager_aidl2_add_service_req", "src/gbinder_servicemanager_aidl3.c: gbinder_servicemanager_aidl3_add_service_req", "src/gbinder_servicemanager_aidl4.c: gbinder_servicemanager_aidl4_add_service_req", "src/gbinder_servicemanager_hidl.c: gbinder_servicemanager_hidl_get_service, gbinder_servicemanager_hidl_add_service", "src/gbinder_config.c: gbinder_config_presets"]}
{"id": "C86", "title": "What Android asks about an object is answered", "statement": "A local object answers what Android asks every object, whatever the application does: a ping succeeds; the descriptor of the interface is the first one of those which the object was created with; for HIDL, the chain of interfaces consists of those which the object was created with, in that order, followed by the base interface unless that's the last one. So casting succeeds for those interfaces and for no others. The function provided by the application isn't called. And what gbinder_ipc_ping_sync sends to an object of Android is a ping for Android, too.", "quantifier": "All lists of interfaces; all requests which Android's own class would accept for the base interface; both sizes of pointers; all places in memory; any function provided by the application.", "why_tests_cant": "Unit tests read the answers with libgbinder itself.", "anchors": ["src/gbinder_local_object.c: gbinder_local_object_new, gbinder_local_object_default_can_handle_transaction, gbinder_local_object_default_handle_looper_transaction", "src/gbinder_driver.c: gbinder_driver_handle_transaction"]}
{"id": "C87", "title": "Threads which handle incoming transactions do so until told to stop, and then they stop", "statement": "A thread which handles incoming transactions keeps doing it until it's told to stop (or reading from the device fails: then it ends, too), and any transaction which has arrived can be taken by any of these threads within a few steps. When the connection goes away, each of them handles at most what it's already about to read, takes a few more steps and ends; whoever stops it isn't left waiting, and the device isn't closed under other threads only to get rid of one of them.", "quantifier": "All interleavings of any number of such threads, of those which stop them, arriving transactions, signals and failures; any number of transactions.", "why_tests_cant": "Depends on what poll and the kernel do between two steps of the thread, on signals and on which of several threads gets a transaction; tests have at most one or two threads, and no kernel.", "anchors": ["src/gbinder_ipc.c: gbinder_ipc_looper_thread, gbinder_ipc_looper_stop, gbinder_ipc_looper_join", "src/gbinder_driver.c: gbinder_driver_poll, gbinder_driver_read, gbinder_driver_close"]}
{"id": "C88", "title": "One-way calls to an object are handled one at a time and in order", "statement": "When one-way calls are made to a local object, its handler is called for them in the order in which they were made, and not before the previous one has been dealt with: the handler has returned or, if it has blocked the request with gbinder_remote_request_block, the request has been completed. It's called at most once for each of them. And a call isn't held back when those made before it are gone, i.e. nobody refers to their requests or data anymore; so each call can be handled once those before it have been dealt with and let go of.", "quantifier": "All numbers of objects, calls and threads which receive them; all interleavings of those threads, the main thread and the application, which may keep requests and buffers for as long as it likes; threads which stop waiting for the main thread because they have to exit.", "why_tests_cant": "Order is what the kernel guarantees only as long as the library doesn't free the buffer of a call too early; that takes several threads receiving calls at the same time to be seen, and a kernel, neither of which unit tests have.", "anchors": ["src/gbinder_driver.c: gbinder_driver_handle_transaction, gbinder_driver_free_buffer", "src/gbinder_ipc.c: gbinder_ipc_looper_transact, gbinder_ipc_looper_tx_handle, gbinder_remote_request_block, gbinder_remote_request_complete", "src/gbinder_remote_request.c: gbinder_remote_request_unref", "src/gbinder_buffer.c: gbinder_buffer_contents_unref"]}
{"id": "C89", "title": "Calls are sent in the order in which they were made", "statement": "If a thread makes one call after another, the other side gets them in that order: a synchronous call is sent before anything that is called after it, whatever is called after the completion of an asynchronous call has been reported is sent after it, and asynchronous calls made one after another are sent one after another. An asynchronous call which hasn't been cancelled is eventually sent.", "quantifier": "every number and order of synchronous and asynchronous calls, every schedule of the main thread and the threads of the pool, cancellations and failures at any time, any number of threads in the pool", "why_tests_cant": "the order depends on which of the threads of the pool gets to the kernel first; a test sees a few of those schedules, usually the ones in which nobody is overtaken", "anchors": ["src/gbinder_ipc.c: gbinder_ipc_transact, gbinder_ipc_transact_custom, gbinder_ipc_tx_proc, gbinder_ipc_tx_done, gbinder_ipc_transact_sync_oneway, gbinder_ipc_transact_sync_reply, GBINDER_IPC_MAX_TX_THREADS", "src/gbinder_client.c: gbinder_client_transact, gbinder_client_transact_sync_oneway, gbinder_client_transact_sync_reply", "src/gbinder_driver.c: gbinder_driver_transact"]}
{"id": "C90", "title": "Each call gets its own reply, no matter how calls are nested", "statement": "A thread which waits for the reply to a call handles incoming transactions meanwhile, and their handlers may call others (or the same ones) in turn. However deeply that's nested, a call returns the reply which was made to that very call or fails because of an error about that very call; it ends at most once; no reply is dropped or taken for the confirmation that something else has been sent; a handler's reply goes to the call it's handling. And all calls of a thread return if those who handle calls reply to them or die.", "quantifier": "All depths; all numbers of threads, of calls and of chains of calls; all interleavings; calls and one-way calls which the kernel refuses; replies which it refuses; threads which die at any moment.", "why_tests_cant": "The kernel doesn't say which call a reply is for; whether it's the right one depends on what each thread has sent and received before, at any depth, and on the order in which several threads do it. Unit tests simulate the kernel with scripts and have at most one level.", "anchors": ["src/gbinder_driver.c: gbinder_driver_transact, gbinder_driver_txstatus, gbinder_driver_handle_transaction, gbinder_driver_handle_commands"]}
{"id": "C91", "title": "Processes which call each other don't wait for each other forever", "statement": "A synchronous call returns as long as the handlers of all calls do which are made because of it. Processes may call each other, and back, from the main thread and from other threads, and from handlers: there's always something to do about calls which haven't been replied to, nobody waits for each other.", "quantifier": "All numbers of processes (using libgbinder or not) and of their threads; all chains of calls, of any length; all interleavings.", "why_tests_cant": "A deadlock needs at least two processes with several threads each and the kernel between them; unit tests have one process and no kernel, and whether threads wait for each other depends on who calls whom at which moment.", "anchors": ["src/gbinder_ipc.c: gbinder_ipc_looper_transact, gbinder_ipc_looper_tx_handle, gbinder_ipc_tx_handler_transact, gbinder_ipc_transact_sync_reply, gbinder_ipc_transact_sync_reply_worker", "src/gbinder_driver.c: gbinder_driver_handle_transaction, gbinder_driver_transact", "src/gbinder_client.c: gbinder_client_transact_sync_reply"]}
