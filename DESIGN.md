# Formal model of libgbinder: design

Sources: `/repo` (read only). Model and proofs: Lean 4.33.0, `/verif/lean/Verif`.

* `Verif/Basic/*`  - arithmetic on bytes, little-endian words, alignment (no code modelled).
* `Verif/Model/*`  - the model, function by function, each definition cites file:lines.
* `Verif/Lemmas/*` - helper lemmas about the model.
* `Verif/Props/*`  - the property theorems (independent specs, theorems, non-vacuity examples).

## Trusted base

* Lean's kernel and the elaborator's translation of the statements.
* Axioms: at most `propext`, `Classical.choice`, `Quot.sound` (checked with `#print axioms`). None added.
* Faithfulness of the hand-written model. The code is not executed here; each model
  definition cites the lines it was read from.
* C80 and `C19_android*` only: Spec/Android, Spec/AndroidHidl and Spec/AndroidObjects, the format of Android's own parcels. Android's sources aren't available here either, so
  it's written from knowledge of them (numbers are little-endian).
* C90 and C91 only: what the kernel does with nested calls and with those of dying threads (part of Model/Nested; Model/Mutual says which thread of a process gets a call). Written from knowledge of Linux.
* C89 only: GLib's thread pool takes tasks in the order in which they were pushed, with no more threads than allowed (part of Model/SendOrder).
* C88 only: what the kernel does with one-way transactions (part of Model/Oneway); C87 only: what poll and read do (part of Model/LooperPoll). Written from knowledge of Linux.
* C86 only: Spec/AndroidQuestions, what Android asks every object and how it reads the answers; written from knowledge of it.
* C85 only: Spec/AndroidServices, how the service managers of the releases of Android read their requests and what they reply; written from knowledge of them.
* C84 only: Spec/Structs, what a structure in memory consists of and how Android reads structures.
* C83 only: Spec/AndroidHandle, how Android reads native handles and file descriptors.
* C82 and C83 only: Spec/AndroidFmq, how Android reads the description of a message queue and what the kernel does with arrays of file descriptors.
* C81 only: Spec/FmqPeer, the rules which the other user of a synchronized message queue follows (those of Android's libfmq).

## Modelling conventions

* Bytes are `UInt8`, buffers are `List UInt8`, pointers into a buffer are `Nat` offsets.
  Words are stored little-endian (the code uses host order; every binder host is LE).
* `float`/`double` are modelled by their bit patterns (the code only copies bytes).
* `gsize` is 64 bits wide where wrap-around matters (`end - ptr`, `offset + 4`, `items * size`).
* Undefined behaviour (out-of-bounds access, signed overflow, uninitialised value,
  use after free) is a distinct outcome `ub`, never silently totalised.
* Allocation never fails (GLib aborts). Logging is not modelled. `GASSERT` is compiled out.
* The kernel is an environment: theorems quantify over everything it may deliver, or use
  the explicit delivery model for scatter-gather buffers (copy + parent pointer fixup).
* Threads: interleavings of the atomic steps delimited by the code's own locks/atomics.

## Per-property plan

| Id | Model | Proof |
|----|-------|-------|
| C01 | Writer and Reader as functions on byte lists | induction over the item list, per-item lemma "read after write in any context" |
| C02 | Writer | induction over operations, invariant `len % 4 = 0` |
| C03 | Reader with UB outcome | per-call safety lemma, induction over calls; violated by three functions: negation with witness, `_partial` for the rest |
| C04 | Reader | per-call case analysis, quantified over states |
| C05 | Reader | invariant over call sequences |
| C06 | string16 writer/reader | case lemma + round trip |
| C07 | UTF-8 / UTF-16 codecs | decode-encode inverse by induction on scalars |
| C08 | parcelable | round trip in context |
| C09 | overwrite_int32 with 64-bit offset arithmetic | pointwise lemma; wrap-around negation |
| C10 | Writer offsets | invariant by induction over operations |
| C11 | Writer buffers_size | invariant by induction |
| C12 | Writer object log | invariant by induction |
| C13-C15 | Writer + kernel delivery model + Reader | symbolic execution of delivery for arbitrary contents |
| C16 | append_contents | list algebra by induction over objects |
| C17 | decode_transaction_data | induction over offsets |
| C18 | rpc protocols on top of C01 | round trip |
| C19 | flat_binder_object codec; with Android's readStrongBinder at the other end in Props/C19Android | round trip; negation for aidl3 remote objects |
| C20 | driver read buffer | stream function equality |
| C21 | handle_transaction trace | case analysis for all handlers |
| C22 | txstatus loop | induction over command list |
| C23 | buffer contents ref counting; the log of every call of the driver against a custody automaton (what was received is kept, freed or handed over, and nothing is due when the call returns) | invariant over op histories; induction on the mutually recursive driver loops |
| C24 | handle_command + main thread queue | counting invariant |
| C25 | async tx state machine | invariant over interleavings |
| C26 | id allocation | termination + uniqueness |
| C27 | looper tx state machine | invariant over interleavings |
| C28 | looper lists | invariant over interleavings |
| C29 | remote registry with handle reuse | invariant; negation for stale finalize |
| C30 | local registry | invariant |
| C31 | remote object state machine | invariant |
| C32 | local strong refs | invariant |
| C33 | can_handle_transaction | decision logic |
| C34 | FMQ as two-party transition system | refinement to a queue |
| C35 | FMQ accesses | arithmetic; negation for overflowing count |
| C36 | FMQ unsync write | refinement for writer-only histories; negation with reader |
| C37 | FMQ grantors | arithmetic |
| C38 | event flag atomics | counting invariant |
| C39 | wait loop | induction |
| C40 | presence timer | invariant |
| C41 | watch table | invariant; negation after restart |
| C42 | names as byte lists | string lemmas |
| C43 | service poll merge | induction on sorted lists; negation with duplicates |
| C44 | service name state machine | invariant |
| C45 | client ranges | sorted list lemma |
| C46 | client calls and add_service | case analysis; negation (uninitialised status) |
| C47 | cleanup list | invariant |
| C48 | config as association lists | lookup lemmas |
| C49 | fd ownership | invariant |
| C50 | proxy tx | invariant; negations (use after free, wrong protocol) |
| C51 | ipc table with dispose race | invariant |
| C52 | paging loop | induction |
| C53 | Writer with the content of new memory as a parameter | noninterference: equal results for any two |
| C54 | Writer with array capacities as a parameter | the outcome doesn't depend on the capacity; witness for fd arrays |
| C55 | commands parsed the way the kernel does | round trip |
| C56 | Driver's event log | predicate on every write, preserved by all functions |
| C57 | Reader | success of each call characterized by the kernel's rule for objects |
| C58 | registration handlers get called | invariant over handlers, watches and the poll; negations |
| C59-C60 | requests and replies of the service managers on top of C01, C13, C18, C19, C57 | round trips |
| C61 | invariant over histories of bridges, objects, proxies and pending handlers | invariant induction, event automata per interface |
| C62 | state machine of callbacks and timeouts on top of GSource | invariant induction, event automata |
| C63 | requests and notifications written and read with the library's own functions; state machine of the callback objects | round trip, invariant induction, event automata |
| C64 | parcels written and read item by item, with the kernel in between | induction over the items, composition of C01, C13-C15, C17-C19, C49, C55 |
| C65 | who refers to the devices, their descriptors and mappings, system calls | inductive invariant; automata over the system calls |
| C66 | the tables of service managers, references to them | inductive invariant (tables, references, keys) |
| C67 | every schedule of asynchronous calls to the service manager | automata over the log for each call and for each list of names, refcounts as a sum over the calls |
| C68 | every order of lookups, callbacks and finalization | counting what was got, what is in the list and what was released |
| C69 | every history of queues and every outcome of the system calls | the multisets of mappings and blocks are those of the live queues (sum over the queues); counting of references in the log |
| C70 | every history of clients, requests, references and calls | an automaton over the log for each call, its past by induction; reference counts are the sum over owners, with a list of references owned by the running function, so that lemmas for taking and dropping compose |
| C71 | every parcel, every received byte string | corollary of C64 for the first item; bounds from the lemmas of C03 |
| C72 | Driver | `track` (Spec/Status.lean) says how a transaction has ended; what a blocked call has seen, and a measure (bytes left to parse, answers left) for not going on forever |
| C73 | LooperThreads | joined and reaped flags per looper on top of the invariant of C28: references outside the lists and the thread are those of the waiting ones |
| C74 | Locks | order of locks (tables and lists of objects, then the list of loopers, then the looper), kept by every function; whoever holds the highest lock can go on, induction on the order and the length of what's left |
| C75 | Exit | invariant: what is still due (transactions, strong references) is covered by what gbinder_ipc_exit has yet to visit; lexicographic rank for its end |
| C76 | Sharing | invariant: the kernel's counters, what's queued for each thread and LocalObj's credit agree; BR_ACQUIRE is always followed by BR_TRANSACTION_COMPLETE on the same thread, until which the application keeps its reference |
| C77 | HandleRefs | invariant: the number of BC_ACQUIREs is the number of objects acquired, a handle is known to the kernel iff it's acquired or in a buffer, every object acquired has the node it was created for |
| C78 | Bridged | invariant: while anybody has the proxy, it's acquired, or BR_ACQUIRE is on its way and there's a buffer which is freed after it has been handled; what those who have it were told is what the handle refers to |
| C79 | Races | static discipline of accesses (compositional), held locks per thread, log of lock events; refinement to Locks |
| C80 | Props/C80 (Spec/Android, Spec/AndroidCalls) | An independent specification of Android's Parcel, working directly on bytes; libgbinder's reader agrees with it on all bytes, and it reads back whatever libgbinder's writer has written; the same for HIDL strings and vectors and libhwbinder (Spec/AndroidHidl), after the transfer by the kernel (Spec/Transfer). |
| C81 | Props/C81 (Spec/FmqPeer, Model/Fmq) | The two-party system of C34 with one party replaced by a process which follows the rules of such queues; the invariant of C34 is kept by every move of either party |
| C82 | Props/C82 (Model/FmqDesc, Spec/AndroidFmq) | Symbolic execution of the writer on any description in memory, what the kernel makes of its four objects and the word between them, and Android's reader on the result |
| C83 | Props/C83 (Spec/AndroidHandle) | As C82, for any handle in memory |
| C84 | Props/C84 (Spec/Structs) | As C80, by induction on the type: who refers to whom (Lemmas/Structs), then field by field (Lemmas/StructReads) |
| C85 | Props/C85 (Spec/AndroidServices) | What C59 and C60 say about the writer, then C80's and C19's readers item by item; the answer by C60_answer |
| C86 | Props/C86 (Spec/AndroidQuestions) | The writers of C33, then C80's readers |
| C87 | LooperPoll | a rank of the looper's phase which each of its steps decreases once it has been told to exit; the byte in the pipe is there only if the exit flag is set |
| C88 | Oneway | per object: one transaction between the kernel's queue and BC_FREE_BUFFER, earlier ones are freed, later ones are waiting; a transaction which isn't freed is referred to; one being handled is referred to by whoever handles it |
| C89 | Model/SendOrder, on top of Model/Async | invariant: the queue is the range of calls which haven't been taken, those being taken care of are older; a generic lemma reduces order to "nothing is sent too late"; refinement to Model/Async (reach_async) |
| C90 | Model/Nested, Lemmas/Nested | invariant: replaying what the kernel has for a thread turns its stack into what the chain of calls says (`expected`); then induction over the chain for progress |
| C91 | Model/Mutual, Lemmas/Mutual | each chain of calls depends on one main thread, which waits in a chain of higher rank or has something to do; induction over the rank. Negation: invariant of the deadlock |

## What is modelled

| Model | Code | Left out |
|-------|------|----------|
| `Io` | gbinder_io.c: object encoders, object_size, object_data_size, decode_buffer_object | nothing else of these functions |
| `Utf` | the GLib UTF-8/UTF-16 conversions (from their documentation) | - |
| `Mem`, `Writer`, `WriterOps` | all of gbinder_writer.c | `write_buf` callbacks supplied by the application; destroying the cleanup list |
| `Reader` | all of gbinder_reader.c except dup_object and the `*_copy` wrappers | the registry (a handle stands for the object) |
| `Tx` | gbinder_io.c 293-478, gbinder_driver.c 440-513 and 1240-1275 | - |
| `Rpc` | gbinder_rpc_protocol.c headers, gbinder_local_request.c, gbinder_remote_request.c set_data | gbinder_rpc_protocol configuration |
| `Driver`, `DriverCmds` | gbinder_driver.c: write, write_read, read buffer, handle_command(s), txstatus, read, transact | opening and closing the device, protocol version; the list of buffers |
| `LocalObj` | gbinder_local_object.c references, gbinder_ipc.c table of local objects | proxies |
| `Dispatch` | gbinder_local_object.c 83-291, 412-448, 527-579; gbinder_driver.c 529-575: who handles a transaction, built-in replies | proxies (which override it) |
| `RemoteObj` | gbinder_remote_object.c, gbinder_ipc.c table of remote objects | signals other than death |
| `Fmq`, `FmqLayout`, `EventFlag` | gbinder_fmq.c | failures of memfd_create and mmap |
| `Async` | gbinder_ipc.c 1462-1722, 1966-2032, 2204-2225; gbinder_client.c 426-467 | what the transaction does |
| `LooperTx` | gbinder_ipc.c 285-560, 649-767; gbinder_driver.c 515-597; reference counts in gbinder_remote_request.c | |
| `Loopers` | gbinder_ipc.c 436-475, 562-647, 692-764, 769-1010, 2070-2100 | closing the driver when joining a thread takes too long (see LooperPoll) |
| `Buffers` | gbinder_buffer.c; who owns the buffers in gbinder_remote_request.c, gbinder_remote_reply.c, gbinder_local_request.c, gbinder_local_reply.c, gbinder_driver.c 537-547, 577, 817-827 | the reference to the driver |
| `Wait` | gbinder_servicemanager.c 429-440, 738-782 | - |
| `Names` | gbinder_servicemanager_hidl.c 324-354; gbinder_servicemanager_aidl.c 234-241; gbinder_servicemanager.c 596-607, 942-952 | - |
| `Manager` | gbinder_servicemanager.c 318-427, 518-613, 738-782, 918-1029, 1112-1127: presence, registration handlers, watches | hash collisions of signal details; what the watch callbacks do |
| `Lists` | gbinder_servicemanager_aidl.c 160-190, gbinder_servicemanager_aidl3.c 79-119, gbinder_servicemanager_hidl.c 154-182: paging through, or reading, the list of services | - |
| `Poll` | gbinder_servicepoll.c, gbinder_servicemanager_aidl.c 65-131 and 243-270: sorting and comparing the lists, the signal, the watches and their idle callbacks; the manager is reduced to adding and removing handlers, the timer is left out | - |
| `Client` | gbinder_client.c except reference counting and cancellation; gbinder_ipc.c 1589-1603, 1728-1844; add_service and the requests made by it in gbinder_servicemanager_aidl*.c, gbinder_servicemanager_hidl.c | - |
| `Services` | get_service, list, the names of the interfaces and the requests made by those in gbinder_servicemanager_aidl.c, gbinder_servicemanager_aidl2.c, gbinder_servicemanager_aidl3.c, gbinder_servicemanager_aidl4.c, gbinder_servicemanager_hidl.c | the list of objects to be released later |
| `ServiceName` | gbinder_servicename.c 44-197, composed with `Manager` (gbinder_servicemanager.c) and `Async` (calls and timers) | NULL arguments, overflow of reference counts, running the main loop from a callback |
| `Config` | gbinder_config.c 55-399, gbinder_rpc_protocol.c 285-396, gbinder_servicemanager.c 60-94, 456-499, 626-675 | parsing of key files and numbers (GLib), exit handlers, for_device(NULL), leak of the idle callback object |
| `Parcels` | gbinder_cleanup.c 35-107, gbinder_writer.c 76-161, 637-677, 1321-1395, gbinder_local_request.c and gbinder_local_reply.c (references, reset, cleanup) | callbacks run while the list is being destroyed are separate steps; nested reset of the same parcel is outside the API |
| `Fds` | gbinder_driver.c 1130-1154, gbinder_io.c 589-609 | descriptor arrays (BINDER_TYPE_FDA), which are closed by the kernel |
| `IpcTable` | gbinder_ipc.c 268-275, 1850-1921, 2102-2132, 2134-2158 (freeing), 2170-2184, g_object_ref and g_object_unref of GLib | threads and transactions of the object; a lookup touches all keys in the table |
| `Proxy` | gbinder_proxy_object.c 52-386; gbinder_local_request.c 129-141 and gbinder_driver.c 1225-1313 (what happens to a NULL request) | conversion of contents is apart from the state machine; threads are in `Async` and `LooperTx`; the registry of local objects is in `LocalObj` |
| `Bridge` | gbinder_bridge.c 51-266, with the references held by gbinder_proxy_object.c to the remote object and the death handlers of gbinder_remote_object.c 65-90, 138-161 | service managers (what a lookup finds and which handlers are notified is chosen freely); what proxies do with requests is in `Proxy` |
| `EventLoop` | gbinder_eventloop.c 37-398 with the functions of GLib it calls (g_source_ref, unref, attach, destroy, remove, what g_main_dispatch does with reference counts) | time (when a timeout fires); NULL arguments; other integrations are supposed to behave the same way |
| `Notify` | gbinder_servicemanager_hidl.c: registerForNotifications request, onRegistration handler, reply to the request | - |
| `HidlWatch` | gbinder_servicemanager_hidl.c: watches, their callback objects and calls (256-441) on top of gbinder_client_transact and gbinder_client_cancel | the pool thread which executes the transaction is two steps (it looks whether the transaction has been cancelled, then the kernel reads the parcel); GBinderServiceManager is closed when its last reference is released; the contents of notifications (see `Notify`) |
| `Device` | gbinder_driver.c:863-960 (new, ref, unref, close), gbinder_buffer.c:39-90, the users of the reference in gbinder_ipc.c (449, 883, 966-1000, 1877, 2152) | `gbinder_driver_close` is one step: calls in progress are in `Model/DeviceCalls`. Names and protocols of the devices are in C48 and C51 |
| `SmTable` | gbinder_servicemanager.c 145-158, 518-583, 702-720, 1069-1127; g_type_class_ref, g_object_ref and g_object_unref of GLib | GBinderIpc (see `IpcTable`); presence (see `Manager`); memory isn't reused; what's done under the lock is one step |
| `gbinder_servicemanager.c` 188-316, 784-840, 868-917 | `Model/SmCalls` | the asynchronous calls on top of the transactions of `Model/Async`; what the service manager returns is arbitrary; lists, objects and transactions are numbered, their memory isn't reused; gbinder_servicemanager_add_service accepts NULL for the object |
| `gbinder_servicemanager.c` 442-454, 842-866, 1114-1127, `gbinder_eventloop.c` 303-313, 353-364 | `Model/Autorelease` | one manager, on the main thread; the objects which the list is freed with are released one at a time and anything may happen in between; references which others have to the objects aren't modelled |
| `gbinder_fmq.c` 126-231, 244-395 | `Model/FmqRes` | what is allocated, mapped and opened; memory, addresses and descriptors are given by an oracle and mappings are compared by their first page and their number of pages; allocations don't fail; the content of the memory is in `Model/Fmq` |
| `gbinder_client.c` 48-180, 256-330, 427-477, `gbinder_ipc.c` 1487-1628, 1707-1760 | `Model/ClientCalls` | built on `Model/Async`; contents of requests and replies are elsewhere (C01, C64), here they are numbers; the application uses an object if it has a reference to it or is in a callback which was given it; the pool of the client's private data and the interface names are left out (C45) |
| Model/Messages | gbinder_remote_request.c, gbinder_remote_reply.c (init_reader, read functions, accessors), gbinder_local_request.c, gbinder_local_reply.c (append functions), gbinder_driver.c:528-545, 815-827 | the reader used by a read function is local to it, so the functions are pure; float and double are bit patterns |
| Model/LooperThreads.lean | gbinder_ipc.c:436-475, 884-930, 972-1010, 2070-2100: which threads are joined, on top of Model/Loopers.lean | The 500 ms after which gbinder_ipc_looper_join closes the driver are in Model/LooperPoll.lean |
| Model/Locks.lean | mutexes and waits of gbinder_ipc.c, gbinder_remote_object.c and gbinder_servicemanager.c: every function which locks something, or calls those which do | A function is the list of its lock operations and waits, one list for each way through it; data is left out. Kernel calls, timed waits and the application's callbacks come back. Joins in gbinder_ipc_looper_free don't wait (that's C73_no_wait_partial). Mutexes inside GLib are not modelled |
| `Model/Exit.lean` | gbinder_ipc.c:1487-1516, 1705-1722, 1966-2012, 2171-2255; gbinder_local_object.c:318-368 | gbinder_ipc_exit after the loopers have been stopped (that's C73): transactions are at a stage rather than being data, what has been interrupted by exit() never resumes |
| Sharing | gbinder_driver.c:515-597, 642-692, 1225-1312, gbinder_writer.c:1164-1184, gbinder_local_object.c:342-353 and the kernel's counting of strong references (Linux: binder_inc_node_nilocked, binder_dec_node_nilocked, binder_inc_ref_olocked, binder_dec_ref_olocked, BINDER_WORK_NODE) | weak references; processes which terminate (same as releasing everything); the algorithm of the kernel is trusted, it isn't in /repo |
| `Model/HandleRefs.lean` | the kernel's table of handles: which node a handle stands for, strong references (BC_ACQUIRE, BC_RELEASE), buffers which keep handles, nodes which die and BR_DEAD_BINDER | on top of `Model/RemoteObj.lean`; handle 0 is left out; weak references and other processes' tables are not modelled |
| Bridged | gbinder_proxy_object.c, gbinder_local_object.c (acquire, release), gbinder_driver.c (BR_ACQUIRE, BR_RELEASE, BR_TRANSACTION), gbinder_buffer.c (contents lists) | one handle and one proxy at a time, the proxy may be freed and created again; both kernels are modelled (as in Sharing and HandleRefs); sources of the same priority are dispatched in the order in which they have been attached (GLib), a custom event loop has to do the same; BR_RELEASE is handled without waiting for the queue to be cleared |
| `Model/Races.lean` | the functions of Model/Locks.lean, gbinder_rpc_protocol.c:362-395, gbinder_config.c:338-361, gbinder_servicemanager.c:626-671, gbinder_client.c:185-250 | Accesses to shared variables are added to the lists of actions, values are left out. Reference counters and other atomic fields, things used by the main thread only (tx_table, tx_pool, counters of local objects) and memory not yet shared with other threads are not in it |
| src/gbinder_fmq.c, src/gbinder_fmq_p.h (the descriptor and what it points to) | Model/FmqDesc | The bytes in memory which gbinder_writer_append_fmq_descriptor copies |
| `Model/DeviceCalls.lean` | gbinder_driver.c:239, 285, 980-989, gbinder_system.c:56-66: the number of the descriptor is read, then the kernel is called with it, maybe repeatedly | on top of `Model/Device`, whose own calls are made at once; gbinder_driver_close remains one step |
| Model/LooperPoll.lean | gbinder_ipc.c:769-856, 931-1005, gbinder_driver.c:949-1001, 1197-1223: what the thread of a looper does between transactions, how it's told to stop, and closing the device if it doesn't | Time: the timeout of 500 ms may expire at any moment. Anything which the kernel may have for a looper is a transaction here. Handling of a transaction is one step, see Model/LooperTx, Model/Loopers and Model/Driver |
| Model/Oneway.lean | gbinder_driver.c:410-416, 515-597, 1156-1178, gbinder_ipc.c:301-342, 389-429, 477-560, 650-767, gbinder_remote_request.c:121-138, 196-221, gbinder_buffer.c:77-113: who refers to the request and the data of one-way transactions, and when the buffer is freed | What the kernel does with one-way transactions (binder_proc_transaction and binder_free_buf of drivers/android/binder.c) is an assumption: has_async_transaction and async_todo of the node. Any looper may get what's queued, in any order. Handling by the thread which has read the transaction stands for gbinder_local_object_handle_looper_transaction |
| src/gbinder_ipc.c: gbinder_ipc_transact, gbinder_ipc_tx_proc and the pool of threads (1706-1722, 1966-2012, 2063-2064); synchronous calls of the main thread (1795-1844) | Model/SendOrder | On top of Model/Async (which allows any order and any number of threads): the pool takes calls in order, no more than 15 at once; when they're sent relative to each other and to synchronous calls. Synchronous calls of other threads aren't modelled. |
| Model/Nested | src/gbinder_driver.c:517-597, 776-854, 1226-1313 (how calls of a thread are nested; what the kernel tells a thread doesn't say which call it's about) | the kernel's chains of calls are a part of the model; contents of transactions are left out, so is BR_FROZEN_REPLY |
| Model/NestedBuf | src/gbinder_driver.c:95-106, 517-597, 754-854, 1197-1313 (Model/Nested with the read buffers of nested calls, and any number of commands stored there at once) | commands which are split between two reads are in Model/Driver |
| src/gbinder_ipc.c 391-420, 479-700, 1064-1115, 1725-1840: processes which call each other (which thread handles what; on top of Model/Nested) | Model/Mutual | C91 |

What the model takes for granted:

* A byte array never gets longer than guint can count (GLib aborts before that happens).
  `buffers_size` is a natural number.
* The host is little-endian and LP64.
* `gutil_memdup(ptr, 0)` is NULL; `g_object_ref`, `g_object_unref` and GSource behave as documented.
* Linux: futex(2); the read buffer is not filled any further after BR_REPLY and BR_TRANSACTION;
  BR_RELEASE only follows BC_ACQUIRE_DONE; BR_REPLY only arrives when a reply is being waited for;
  a buffer isn't used for another transaction until it has been freed; the second registration for the death of a handle is
  ignored.
* There is one main thread. Threads of thread pools (GThreadPool) can be created.

## Disagreements between code and properties

Each is a theorem with a concrete witness. What remains true is proved by the theorems which have
the suffix `_partial`.

| Theorem | What happens |
|---------|--------------|
| `C03_fails_byte_array` | gbinder_reader_read_byte_array moves the reader past the end of the buffer if the padding is missing, and `end - ptr` becomes a huge number, i.e. anything can be read after that |
| `C03_fails_aidl3_object` | the same with the stability word of an aidl3 object |
| `C03_fails_string16`, `C03_fails_string8` | signed overflow with a length of about 2^30 (2^31) |
| `C03_fails_hidl_string` | `len + 1` wraps around, one byte is read outside of the buffer |
| `C05_fails` | consequence of the first one: bytes read plus bytes remaining isn't the size |
| `C09_fails` | gbinder_writer_overwrite_int32 with an offset close to 2^64 writes outside of the buffer |
| `C16_fails_buffers` | the size of a copied fd array is added to the size of the buffers |
| `C17_fails_wrap`, `C17_fails_truncated` | offsets which aren't inside the data are accepted (arithmetic wraps around; objects larger than flat_binder_object) |
| `C19_fails_remote`, `C19_fails_null` | aidl3: stability is expected but never written for handles; NULL isn't consumed |
| `C20_fails_transact` | commands left in the buffer are lost if the status of the reply is negative |
| `C21_fails` | one-way transaction with TF_STATUS_CODE is replied to |
| `C24_fails` | BR_DEAD_BINDER isn't acknowledged if the object commits suicide meanwhile |
| `C27_fails_dropped` | blocked request dropped without having been completed is never completed |
| `C27_fails_stale` | after an interrupted poll() the reply to one transaction is taken for that to the next one |
| `C28_fails_shutdown` | stopping the loopers while one of them is blocked: it puts itself back into the list and is freed while being there |
| `C28_fails_enter` | looper which failed to enter stays in the list, no other one is started |
| `C29_fails_reuse`, `C29_fails_race`, `C29_fails_stale` | objects remove each other from the table: it is done by handle, without looking who's there |
| `C30_fails` | local object being finalized can be found in the table |
| `C34_fails_size` | nothing can be written to a queue of 4G |
| `C35_fails_overflow`, `C35_fails_copy` | the number of items times the size overflows, access outside of the ring |
| `C35_fails_large` | the same for queues larger than 4G |
| `C35_fails_peer` | counters changed by the peer between the checks |
| `C36_fails_write`, `C36_fails_torn` | unsynchronized queue: room is computed from the read pointer; torn reads |
| `C37_fails_large` | event flag and ring overlap in a queue of 4G |
| `C38_fails_wakeup` | FUTEX_WAKE_BITSET with G_MAXUINT32 wakes up one thread rather than all of them |
| `C54_fails_fmq`, `C54_fails` | gbinder_writer_append_fmq_descriptor reserves 28 bytes for a 32-byte object. (gbinder_writer_append_fds, which would do the same, is declared in include/gbinder_writer.h but there's no such function in the library, calls of it don't link) |
| `C40_fails_twice`, `C40_fails_signals`, `C40_fails_freed` | two service manager objects of different types for the same device share the remote object. If it comes back and dies again before one of them notices, that one starts another timer and only remembers the last one: two timers, repeated signals, and a timer which fires after the object has been freed |
| `C41_fails_abandoned`, `C41_fails_other` | names are watched again after a restart of the service manager even if there are no handlers left; and gbinder_servicemanager_remove_handlers may unwatch such a name instead of the one whose last handler has been removed |
| `C42_fails_slash` | a name beginning with a slash is normalized to an empty one, which is not valid |
| `C43_fails` | names which are in the list twice are announced with every poll |
| `C52_fails_null` | aidl3: NULL string in the list of services hides those after it |
| `C52_fails_size` | aidl3, aidl4: the number of names isn't checked against the size of the reply, 8 bytes are enough for a list of 2^31 - 1 NULLs |
| `C58_fails_second`, `C58_fails_meanwhile` | the second registration handler for a name isn't told about the service which is already there; neither is the one which is added by a callback after its name has been announced by the same poll |
| `C46_fails_status`, `C46_fails_add` | gbinder_client_transact_sync_reply doesn't set the status if the object is dead; gbinder_servicemanager_add_service_sync returns an uninitialized variable in that case |
| `C46_fails_exception` | registration is successful although the service manager says that it has been refused: the contents of the reply are ignored |
| `C44_fails_two` | gbinder_servicename.c 77-128: with two GBinderServiceManager objects for a device the presence handler can start a call while the retry timer is pending, so both are outstanding |
| `C44_fails_wait` | gbinder_servicename.c 101-128: gbinder_servicemanager_wait called from a presence handler changes the state under the handler, with the same effect |
| `C48_fails_unknown` | gbinder_config.c 207-254, 377-391: an unknown value in a later file hides the known value of an earlier one, and the preset; the built-in or the default value is used instead |
| `C47_fails_null` | gbinder_writer.c 1381-1395: gbinder_writer_add_cleanup with a NULL writer never calls the destroy function, while gbinder_local_request_cleanup and gbinder_local_reply_cleanup with NULL call it at once |
| `C51_fails_race`, `C51_fails_later` | gbinder_ipc.c 2102-2128: dispose removes the key from the table without checking whether the object has been referenced again by gbinder_ipc_new, or whether the entry is its own. Two objects for the same device and protocol may be in use, and the disposal of one removes the entry of the other (the assertion there would fail in a debug build). No memory is used after being freed (`C51_safe`) |
| `C50_fails_freed` | gbinder_proxy_object.c 210-214: gbinder_proxy_tx_dequeue may drop the last reference to the proxy, then `self->remote` is accessed if the status was DEAD_OBJECT |
| `C50_fails_nested` | gbinder_driver.c 561-568: a request handled by the main thread while it waits for a synchronous reply can't be blocked; the sender gets an empty reply with status 0, the result is lost |
| `C50_fails_empty` | gbinder_local_request.c 129-141: a request without data becomes a NULL local request, which gbinder_driver_transact dereferences |
| `C50_fails_header` | gbinder_proxy_object.c 143: the converter of requests is initialised with the protocol of the receiving side, so the RPC header isn't translated when the protocols differ |
| `C61_fails_stale` | A registration handled after the death of the object but before the bridge has been told about the death: the object is replaced (gbinder_bridge.c:141-153) but the proxy is not, it stays published and forwards to the dead object. Death handlers are called synchronously, so it takes a death handler connected earlier than the one of the bridge which runs the event loop. |
| `C61_fails_missed` | A new instance of the service is registered before the death of the old object is noticed: the registration is ignored because there is an object (gbinder_bridge.c:143), and when the object dies nobody looks the service up again. |
| `C63_fails_char` | notifications about instances whose names contain characters other than letters, digits and a few others (e.g. an underscore) are dropped by gbinder_servicemanager_service_registered, although HIDL allows them |
| `C63_fails_freed` | if the last reference to the GBinderServiceManager is released while a pool thread is about to send registerForNotifications, then the kernel reads the name from freed memory (append_hidl_string doesn't copy it and nothing keeps it) |
| `C63_fails_leak` | if gbinder_client_transact refuses registerForNotifications, then the call and the reference to the callback object which it holds are never freed (destroy isn't called; latent, gbinder_servicemanager.c doesn't get there with a dead service manager) |
| `C65_fails_stuck` | A looper thread which doesn't terminate within the timeout (gbinder_ipc.c:968-1008, also from gbinder_ipc_exit) has its device closed, although requests which are still being handled hold references to it only to keep the memory mapped. Access to their contents crashes |
| `C66_fails_inherited`, `C66_fails_dangling` | The table of managers is in the class structure (gbinder_servicemanager_p.h:59), which GLib copies from the parent. If there's an aidl manager when aidl2, aidl3 or aidl4 is used for the first time, the derived class gets the same table (gbinder_servicemanager.c:539-560): whoever asks for aidl2 gets the aidl manager, and when one of the classes frees the table, the other one goes on using it |
| `C66_fails_protocol` | The key in the table of managers is the device (gbinder_servicemanager.c:541), whatever the protocol. gbinder_servicemanager_new2 returns a manager with another protocol |
| `C66_fails_empty` | If the device is an empty string, that's the key (gbinder_servicemanager.c:557), but the name of the device is /dev/binder (gbinder_ipc.c:1860), and that's the key which is removed (1101). The freed manager stays in the table |
| `C66_fails_race` | A manager which is found in the table between the beginning of dispose and the lock there (gbinder_servicemanager.c:1069-1100) isn't removed from the table. If that new reference is dropped before g_object_unref gets to look at the counter again, it's freed and stays in the table |
| C68 | `gbinder_servicemanager_autorelease_cb` (gbinder_servicemanager.c:442-454) clears the pointer to the callback which is running but doesn't drop the reference it got from `gbinder_idle_callback_schedule_new` (gbinder_eventloop.c:303-313): a `GBinderIdleCallback` is leaked each time (`C68_fails_leak`) |
| C69 | the file descriptor returned by memfd_create is never closed, neither with the queue (gbinder_fmq.c:206-231, `C69_fails_fd`) nor if ftruncate fails (gbinder_fmq.c:291, 366-369, `C69_fails_trunc`) |
| C69 | if mmap fails the NULL is reported and then written to (gbinder_fmq.c:328-347, `C69_fails_mmap`); a queue of 4 gigabytes or more is mapped with a length cut to 32 bits and unmapped with the full one (gbinder_fmq.c:176-178 and 199-202, `C69_fails_large`); a type which is neither of the two is accepted, treated as one of them when the queue is created and as the other when it's freed (gbinder_fmq.c:212, 328, `C69_fails_type`) |
| C72 | gbinder_driver.c:752-843 ignores BR_FROZEN_REPLY, BR_TRANSACTION_PENDING_FROZEN and BR_ERROR while waiting for the end of a transaction, so the call doesn't return (`C72_fails_frozen`, `C72_fails_pending`, `C72_fails_error`) |
| C73 | gbinder_ipc.c:440-442: a looper's thread which drops the last reference to its looper is neither joined nor detached, its stack is leaked (`C73_fails_exit`, `C73_fails_burst`); if pthread_create fails then pthread_join is called for a thread id which isn't set (`C73_fails_create`) |
| C74 | gbinder_ipc.c:2203-2208 and 1081-1093: gbinder_ipc_exit waits on the main thread for asynchronous calls to finish, and an asynchronous call which has received a request waits for the main thread without anything that could stop it (nobody writes to h->pipefd), so the process doesn't exit (`C74_fails_exit`); if pthread_create fails then pthread_join of an unset thread happens under looper_mutex, and possibly remote_objects_mutex (`C74_fails_create`) |
| C75 | gbinder_ipc.c:2205-2224: tx_pool is NULL while destroy callbacks are called, so what they submit is lost (`C75_fails_submit`); a transaction which isn't in the table anymore because a destroy callback has run the event loop is a NULL dereference (`C75_fails_nested`); gbinder_ipc.c:2181-2188: GBinderIpc objects created by those callbacks aren't in the list (`C75_fails_open`); gbinder_ipc.c:1505-1516 never continues if exit() is called by the completion callback, and the source which is being dispatched doesn't call destroy when it's destroyed (`C75_fails_callback`) |
| C76 | gbinder_writer.c:1164-1184: no reference is taken to the object which is appended to a request or a reply; unless the application keeps its own until it has been sent, the other process gets a reference to a freed object (`C76_fails_dropped`), or to another one at the same address (`C76_fails_reuse`). Parcel::flattenBinder in Android does take one |
| C77 | gbinder_driver.c:695-713: the cookie of BR_DEAD_BINDER is the handle itself, if the handle has been reused, then another object is declared dead (`C77_fails_stale`); gbinder_remote_object.c:76-85, 148-157: BC_RELEASE is sent before the object is removed from the table (`C77_fails_window`); gbinder_proxy_object.c:115-116: the object isn't acquired, but the application gets it if it receives the same handle (`C77_fails_bridged`) |
| C78 | gbinder_driver.c:544-547: the buffer of an empty call is freed at once, and that's what makes the kernel keep the proxy until the call is handled. If the caller drops its reference, then the handle may be released and reused before the main thread forwards the call, which then goes to a wrong object (`C78_fails_empty`). Requests which are being forwarded aren't in context->bufs (gbinder_driver.c:1225-1310), the handle is kept until BR_ACQUIRE is handled only because completions are dispatched in order |
| C79 | gbinder_ipc.c:1861 and gbinder_rpc_protocol.c:363-390, gbinder_servicemanager.c:638-653, gbinder_config.c:348-361: lazy initialisation isn't synchronised (`C79_fails_protocols`, `C79_fails_types`, `C79_fails_config`); gbinder_driver.c:955-956: the descriptor is closed while a looper uses it (`C79_fails_fd`); gbinder_ipc.c:759-760 and 2094-2095: `next` of a looper which is being stopped is written by two threads (`C79_fails_next`, the consequence is `C28_fails_shutdown`); gbinder_remote_object.c:77 and gbinder_client.c:196: `dead` (`C79_fails_dead`) |
| `C19_fails_android_remote`, `C19_fails_android_null` | the same two with Android at the other end: Android 11 takes whatever follows a handle for its stability, and NULL references written by Android (which are not in the table of objects) are not consumed by GBinderReader |
| C84_fails_pointer: GBINDER_WRITER_FIELD_POINTER takes a type, and a type has fields, but the fields of what a pointer points to are never written (gbinder_writer.c:784-787 looks at the size only). A structure with a pointer to a structure with a string arrives without the string, with an address of the sender in its place | C84_struct_partial and C84_structVec_partial for types whose pointers point to plain data |
| C85_fails_add12, C85_fails_add13: since API level 31 the preset is the protocol aidl3, which appends the stability to each local object (gbinder_config.c:145-149, gbinder_rpc_protocol.c:218-239), together with the service manager aidl4, which appends one once again (gbinder_servicemanager_aidl4.c:82-84). Android 12 (whose format of the stability is another one) refuses the request; later ones register the service, take the second stability for allowIsolated and the zero for the priority | C85_add_partial is for Android 8 to 11 |
| C65_fails_reused: when a looper doesn't terminate in time gbinder_ipc_looper_join closes the device without knowing what its thread is doing (gbinder_ipc.c:988-999). If the thread has read `self->fd` but hasn't called the kernel yet, or is told by EINTR to call it again (gbinder_system.c:64), it uses a number which may be somebody else's descriptor by then | The full claim of C65 is kept; C65_calls_partial excludes loopers which hang |
| A looper waits for the kernel although it has been told to stop: gbinder_driver_poll (gbinder_driver.c:989-1000) returns -1 if poll is interrupted by a signal, and gbinder_ipc_looper_thread (gbinder_ipc.c:793-794) takes the bits of that for events. POLLIN is one of them, hence the looper reads from the device without anything being there. The same happens if another looper has taken what both have been told about. Stopping the looper then takes 500 ms and closes the device under other threads (see C65 for what that may cause) | C87_fails_interrupted, C87_fails_taken (C87_quick_partial for one looper and no signals) |
| Order of one-way calls: gbinder_driver_handle_transaction frees the buffer of a transaction without data at once (gbinder_driver.c:544-547), which is what the kernel waits for before it delivers the next one-way transaction to the same object. With more than one looper (or if the application blocks the request, which makes libgbinder start another looper) one-way calls may be handled in the wrong order, or at the same time | C88_fails_order, C88_fails_overlap, C88_fails_inorder (C88_order_partial for calls with data) |
| C89 | gbinder_client_transact hands each call to a pool of up to 15 threads (gbinder_ipc.c:96, 1985, 2063-2064), so one-way calls made one after another may be sent in the wrong order (C89_fails_order), and may be overtaken by a later synchronous call (C89_fails_overtaken); if 15 calls wait for replies, nothing else is sent asynchronously (C89_fails_stuck). |
| C91 | Two processes which use libgbinder wait for each other forever if the main thread of one of them calls the other synchronously, and the handler calls back synchronously: the call back is received by another thread, which passes it to the main thread and waits, while the main thread waits for the reply to the first call (gbinder_ipc.c:651-700, 1797). Android handles such calls on the waiting thread because the kernel passes them to it, but here the call back is made by the main thread of the other process rather than by the one which has received the first call, so that the kernel doesn't know that they belong together. |

## Agreement with the unit tests

The modules in `Verif/Conformance` replay unit tests of /repo/unit on the model: the same calls with
the same arguments, and the values which the tests expect. They say that the model is one of this code;
they're checks on literals, no property relies on them, and they aren't listed in MANIFEST.json.

| Module | Tests |
|--------|-------|
| Writer | unit_writer.c |
| Reader | unit_reader.c |
| Protocol | unit_protocol.c, unit_config.c |
| Fmq | unit_fmq.c |
| Object | unit_local_object.c |
| Manager | unit_servicemanager.c, unit_servicename.c, unit_servicepoll.c |
| Messages | unit_local_request.c, unit_local_reply.c, unit_remote_request.c, unit_remote_reply.c |
| Ipc | unit_driver.c, unit_ipc.c (transactions) |
| Services | unit_servicemanager_aidl.c, unit_servicemanager_aidl2.c, unit_servicemanager_aidl3.c, unit_servicemanager_aidl4.c |
| ServicesHidl | unit_servicemanager_hidl.c |
| Async | unit_ipc.c (asynchronous transactions, blocked requests) |
| Client | unit_client.c, unit_cleanup.c |
| Life | unit_eventloop.c, unit_buffer.c, unit_remote_object.c |
| Bridge | unit_proxy_object.c, unit_bridge.c |

## Wrong programs

`seeded/LOG.jsonl` lists edits of the model which break a property, one per line, with the
theorems which don't prove anymore: those which failed, and the property files which depend on them
and couldn't be rebuilt.
