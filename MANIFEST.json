{
 "claims": [
  {
   "property": "C01",
   "status": "proved",
   "theorems": [
    "Gb.C01.C01_plain_round_trip",
    "Gb.C01.C01_received"
   ],
   "note": ""
  },
  {
   "property": "C02",
   "status": "proved",
   "theorems": [
    "Gb.C02.C02_aligned"
   ],
   "note": ""
  },
  {
   "property": "C03",
   "status": "partial",
   "theorems": [
    "Gb.C03.C03_reader_in_bounds_partial",
    "Gb.C03.C03_string16_overflow_partial",
    "Gb.C03.C03_fails_byte_array",
    "Gb.C03.C03_fails_aidl3_object",
    "Gb.C03.C03_fails_string16",
    "Gb.C03.C03_fails_string8",
    "Gb.C03.C03_fails_hidl_string"
   ],
   "note": "The full claim is false in four places of the code (C03_fails_*): padded byte arrays, aidl3 objects, length-prefixed strings (signed overflow), HIDL strings with an empty text buffer. The partial theorem covers every other sequence of calls."
  },
  {
   "property": "C04",
   "status": "proved",
   "theorems": [
    "Gb.C04.C04_failed_read_unchanged",
    "Gb.C04.C04_failed_string_unchanged"
   ],
   "note": ""
  },
  {
   "property": "C05",
   "status": "partial",
   "theorems": [
    "Gb.C05.C05_counters_partial",
    "Gb.C05.C05_data_partial",
    "Gb.C05.C05_whole",
    "Gb.C05.C05_fails",
    "Gb.C05.C05_fixed_advance"
   ],
   "note": "The counters add up for all the calls covered by C03 (C05_fails shows why not for the rest), and for the same calls reading doesn't change what gbinder_reader_get_data returns, which is the whole of what was received (C05_whole); the exact advance of fixed-size reads is proved without restrictions."
  },
  {
   "property": "C06",
   "status": "proved",
   "theorems": [
    "Gb.C06.C06_string16_distinguishable",
    "Gb.C06.C06_skip_same"
   ],
   "note": ""
  },
  {
   "property": "C07",
   "status": "proved",
   "theorems": [
    "Gb.C07.C07_text_preserved",
    "Gb.C07.C07_valid_text",
    "Gb.C07.C07_received"
   ],
   "note": ""
  },
  {
   "property": "C08",
   "status": "proved",
   "theorems": [
    "Gb.C08.C08_parcelable_round_trip"
   ],
   "note": ""
  },
  {
   "property": "C09",
   "status": "partial",
   "theorems": [
    "Gb.C09.C09_overwrite_partial",
    "Gb.C09.C09_fails"
   ],
   "note": "Holds for all offsets except the four largest gsize values, where offset+4 wraps around (C09_fails)."
  },
  {
   "property": "C10",
   "status": "proved",
   "theorems": [
    "Gb.C10.C10_offset_table",
    "Gb.C10.C10_increasing",
    "Gb.C10.C10_accepted"
   ],
   "note": ""
  },
  {
   "property": "C11",
   "status": "proved",
   "theorems": [
    "Gb.C11.C11_buffers_size",
    "Gb.C11.C11_transaction",
    "Gb.C11.C11_reply",
    "Gb.C11.C11_untyped"
   ],
   "note": "Assumes that the total size fits binder_size_t of the ABI."
  },
  {
   "property": "C12",
   "status": "proved",
   "theorems": [
    "Gb.C12.C12_kernel_accepts",
    "Gb.C12.C12_parents"
   ],
   "note": ""
  },
  {
   "property": "C13",
   "status": "proved",
   "theorems": [
    "Gb.C13.C13_round_trip",
    "Gb.C13.C13_copy_round_trip",
    "Gb.C13.C13_null"
   ],
   "note": ""
  },
  {
   "property": "C14",
   "status": "proved",
   "theorems": [
    "Gb.C14.C14_round_trip"
   ],
   "note": ""
  },
  {
   "property": "C15",
   "status": "proved",
   "theorems": [
    "Gb.C15.C15_round_trip",
    "Gb.C15.C15_empty",
    "Gb.C15.C15_expected_size"
   ],
   "note": ""
  },
  {
   "property": "C16",
   "status": "partial",
   "theorems": [
    "Gb.C16.C16_append",
    "Gb.C16.C16_copy",
    "Gb.C16.C16_convert",
    "Gb.C16.C16_buffers_partial",
    "Gb.C16.C16_fails_buffers"
   ],
   "note": "Bytes, offsets and object translation proved for every received parcel made of whole objects; the buffers_size equality fails for fd array objects (C16_fails_buffers) and is proved without them (C16_buffers_partial)."
  },
  {
   "property": "C17",
   "status": "partial",
   "theorems": [
    "Gb.C17.C17_io32_partial",
    "Gb.C17.C17_io64_partial",
    "Gb.C17.C17_complete",
    "Gb.C17.C17_fails_wrap",
    "Gb.C17.C17_fails_truncated"
   ],
   "note": "Soundness proved for tables of separate whole objects without wrap-around; C17_fails_wrap and C17_fails_truncated are tables which the code accepts although an object is not inside the data."
  },
  {
   "property": "C18",
   "status": "proved",
   "theorems": [
    "Gb.C18.C18_header",
    "Gb.C18.C18_payload",
    "Gb.C18.C18_internal"
   ],
   "note": ""
  },
  {
   "property": "C19",
   "status": "partial",
   "theorems": [
    "Gb.C19.C19_announced",
    "Gb.C19.C19_received",
    "Gb.C19.C19_identity",
    "Gb.C19.C19_remote_partial",
    "Gb.C19.C19_null_partial",
    "Gb.C19.C19_fails_remote",
    "Gb.C19.C19_fails_null",
    "Gb.C19.C19_android",
    "Gb.C19.C19_android_remote_partial",
    "Gb.C19.C19_android_null_partial",
    "Gb.C19.C19_android_received",
    "Gb.C19.C19_fails_android_remote",
    "Gb.C19.C19_fails_android_null"
   ],
   "note": "Proved for local objects with every protocol. False for handles written with aidl3 (C19_fails_remote: the stability word is skipped by the reader but never written) and for NULL (C19_fails_null: read as NULL but not skipped). Also with Android at the other end (C19_android and the others in Props/C19Android, against the specification of readStrongBinder in Spec/AndroidObjects): Android reads objects and NULL as they were written and handles it wrote are read, except for handles written with aidl3 (C19_fails_android_remote) and NULL written by Android (C19_fails_android_null)."
  },
  {
   "property": "C20",
   "status": "partial",
   "theorems": [
    "Gb.C20.C20_read_prefix",
    "Gb.C20.C20_transact_prefix",
    "Gb.C20.C20_read_complete",
    "Gb.C20.C20_read",
    "Gb.C20.C20_transact_or",
    "Gb.C20.C20_transact_partial",
    "Gb.C20.C20_read_whole",
    "Gb.C20.C20_transact_whole",
    "Gb.C20.C20_fails_transact"
   ],
   "note": "Proved for gbinder_driver_read, and for gbinder_driver_transact unless the peer's reply has a negative status, in which case commands left in the buffer are dropped (C20_fails_transact)."
  },
  {
   "property": "C21",
   "status": "partial",
   "theorems": [
    "Gb.C21.C21_transaction_partial",
    "Gb.C21.C21_count_partial",
    "Gb.C21.C21_atmost_partial",
    "Gb.C21.C21_fails"
   ],
   "note": "Proved for every transaction without TF_STATUS_CODE; a one-way transaction with that flag is replied to (C21_fails)."
  },
  {
   "property": "C22",
   "status": "proved",
   "theorems": [
    "Gb.C22.C22_verdict",
    "Gb.C22.C22_dead",
    "Gb.C22.C22_failed",
    "Gb.C22.C22_ok",
    "Gb.C22.C22_reply",
    "Gb.C22.C22_cases"
   ],
   "note": "The statement has been worded to match what the code promises: positive peer statuses other than 1 and 2 are returned as they are."
  },
  {
   "property": "C23",
   "status": "proved",
   "theorems": [
    "Gb.C23.C23_safe",
    "Gb.C23.C23_once",
    "Gb.C23.C23_held",
    "Gb.C23.C23_request",
    "Gb.C23.C23_reader",
    "Gb.C23.C23_all",
    "Gb.C23.C23_custody",
    "Gb.C23.C23_custody_done"
   ],
   "note": "Assumes that the kernel sends BR_REPLY only if a reply is being waited for. The reference which buffer contents hold to the driver is not part of the model."
  },
  {
   "property": "C24",
   "status": "partial",
   "theorems": [
    "Gb.C24.C24_increfs",
    "Gb.C24.C24_acquire",
    "Gb.C24.C24_deadBinder",
    "Gb.C24.C24_other",
    "Gb.C24.C24_dropped",
    "Gb.C24.C24_not_yet",
    "Gb.C24.C24_local",
    "Gb.C24.C24_same",
    "Gb.C24.C24_remote_partial",
    "Gb.C24.C24_delivered",
    "Gb.C24.C24_same_remote",
    "Gb.C24.C24_fails"
   ],
   "note": "Proved for BR_INCREFS and BR_ACQUIRE; BR_RELEASE and BR_DECREFS aren't answered, and the references are dropped after everything else (C24_dropped, C24_not_yet). BR_DEAD_BINDER is not acknowledged if the remote object commits suicide (failed proxy transaction) before the main thread gets to the notification (C24_fails); proved otherwise (C24_remote_partial)."
  },
  {
   "property": "C25",
   "status": "proved",
   "theorems": [
    "Gb.C25.C25_safe",
    "Gb.C25.C25_life",
    "Gb.C25.C25_once",
    "Gb.C25.C25_cancel",
    "Gb.C25.C25_last",
    "Gb.C25.C25_result",
    "Gb.C25.C25_destroy",
    "Gb.C25.C25_progress",
    "Gb.C25.C25_completed",
    "Gb.C25.C25_client"
   ],
   "note": ""
  },
  {
   "property": "C26",
   "status": "proved",
   "theorems": [
    "Gb.C26.C26_new",
    "Gb.C26.C26_distinct",
    "Gb.C26.C26_cancel",
    "Gb.C26.C26_cancel_none",
    "Gb.C26.C26_available",
    "Gb.C26.C26_exhausted"
   ],
   "note": ""
  },
  {
   "property": "C27",
   "status": "partial",
   "theorems": [
    "Gb.C27.C27_safe",
    "Gb.C27.C27_pipes",
    "Gb.C27.C27_cleanup",
    "Gb.C27.C27_answer_partial",
    "Gb.C27.C27_once_partial",
    "Gb.C27.C27_delivered_partial",
    "Gb.C27.C27_progress_partial",
    "Gb.C27.C27_fails_dropped",
    "Gb.C27.C27_fails_stale"
   ],
   "note": "Safety, pipe ownership and cleanup hold for all executions. Exactly one answer with the right value is proved for executions in which a looper which failed to wait (poll error) doesn't continue; C27_fails_stale shows what happens if it does. A blocked request which is dropped without being completed leaves the looper waiting forever (C27_fails_dropped)."
  },
  {
   "property": "C28",
   "status": "partial",
   "theorems": [
    "Gb.C28.C28_exclusive_partial",
    "Gb.C28.C28_limit_partial",
    "Gb.C28.C28_safe_partial",
    "Gb.C28.C28_freed_partial",
    "Gb.C28.C28_replaced_partial",
    "Gb.C28.C28_served_partial",
    "Gb.C28.C28_check",
    "Gb.C28.C28_needed",
    "Gb.C28.C28_fails_shutdown",
    "Gb.C28.C28_fails_enter"
   ],
   "note": "Holds for executions in which loopers are not stopped while one of them is blocked and entering the looper doesn't fail; C28_fails_shutdown and C28_fails_enter show what happens otherwise. What a looper does between transactions, and closing the driver when joining a thread takes too long, is in C87."
  },
  {
   "property": "C29",
   "status": "partial",
   "theorems": [
    "Gb.C29.C29_lookup_partial",
    "Gb.C29.C29_one_partial",
    "Gb.C29.C29_death_partial",
    "Gb.C29.C29_delivered_partial",
    "Gb.C29.C29_watched_partial",
    "Gb.C29.C29_fails_reuse",
    "Gb.C29.C29_fails_race",
    "Gb.C29.C29_fails_stale"
   ],
   "note": "Objects remove themselves from the table by handle and notifications carry only the handle, so the property fails if the kernel reuses the handle too early or if a lookup races with the last unref (C29_fails_reuse, C29_fails_race, C29_fails_stale). Proved for executions in which a new object for a handle is only created when nothing is left of the previous one."
  },
  {
   "property": "C30",
   "status": "partial",
   "theorems": [
    "Gb.C30.C30_registered",
    "Gb.C30.C30_unknown",
    "Gb.C30.C30_held",
    "Gb.C30.C30_findable",
    "Gb.C30.C30_partial",
    "Gb.C30.C30_fails"
   ],
   "note": "Proved unless a lookup races with the end of an unref: an object which was re-referenced during its disposal stays in the table while its reference count drops to zero, and another lookup may then return it (C30_fails). C30_partial: that lookup is the only possible origin of undefined behaviour."
  },
  {
   "property": "C31",
   "status": "proved",
   "theorems": [
    "Gb.C31.C31_once",
    "Gb.C31.C31_twice",
    "Gb.C31.C31_dead",
    "Gb.C31.C31_told",
    "Gb.C31.C31_strong",
    "Gb.C31.C31_strong_dead",
    "Gb.C31.C31_registration",
    "Gb.C31.C31_gone",
    "Gb.C31.C31_callback",
    "Gb.C31.C31_back",
    "Gb.C31.C31_settles"
   ],
   "note": "C31_settles: whatever hasn't been done yet can be done; after that, an object is there if and only if the application has references to it, the application knows if its death was noticed, and of the others nothing is left in the kernel."
  },
  {
   "property": "C32",
   "status": "proved",
   "theorems": [
    "Gb.C32.C32_balance",
    "Gb.C32.C32_weak",
    "Gb.C32.C32_release",
    "Gb.C32.C32_alive",
    "Gb.C32.C32_kernel",
    "Gb.C32.C32_quiet",
    "Gb.C32.C32_settles"
   ],
   "note": "Assumes that the kernel sends BR_RELEASE only for references it has been told about with BC_ACQUIRE_DONE (which is proved in C76). C32_settles: whatever has been scheduled can be done, and then all references to an object are those of the application and of the kernel."
  },
  {
   "property": "C33",
   "status": "proved",
   "theorems": [
    "Gb.C33.C33_registered",
    "Gb.C33.C33_room",
    "Gb.C33.C33_user",
    "Gb.C33.C33_calls",
    "Gb.C33.C33_ping",
    "Gb.C33.C33_interface",
    "Gb.C33.C33_descriptor",
    "Gb.C33.C33_chain",
    "Gb.C33.C33_request",
    "Gb.C33.C33_ping_sent"
   ],
   "note": "Which transactions are built in (per code and interface), that they never reach the application, that all others do (main thread) or fail with -EBADMSG, what each built-in reply contains as seen by the peer after kernel transfer, and that the registered chain ends with IBase. Proxy objects, which override the dispatch, are the subject of C50."
  },
  {
   "property": "C34",
   "status": "partial",
   "theorems": [
    "Gb.C34.C34_fifo_partial",
    "Gb.C34.C34_unread_partial",
    "Gb.C34.C34_write_partial",
    "Gb.C34.C34_read_partial",
    "Gb.C34.C34_safe_partial",
    "Gb.C34.C34_progress_partial",
    "Gb.C34.C34_race_partial",
    "Gb.C34.C34_fails_size"
   ],
   "note": "The size of the queue has to fit in 32 bits (C34_fails_size is a larger queue) and the number of bytes which go through the queue in 64 bits. Under these conditions the FIFO property, the conditions under which reads and writes are accepted, absence of undefined behaviour, progress and race freedom are proved for all interleavings."
  },
  {
   "property": "C35",
   "status": "partial",
   "theorems": [
    "Gb.C35.C35_read_partial",
    "Gb.C35.C35_write_partial",
    "Gb.C35.C35_fails_overflow",
    "Gb.C35.C35_fails_copy",
    "Gb.C35.C35_fails_peer",
    "Gb.C35.C35_fails_large"
   ],
   "note": "Doesn't hold if the number of bytes overflows in gbinder_fmq_begin_read, for queues larger than 4G, and if the peer moves the read pointer (C35_fails_*). Proved otherwise."
  },
  {
   "property": "C36",
   "status": "partial",
   "theorems": [
    "Gb.C36.C36_write_partial",
    "Gb.C36.C36_sent",
    "Gb.C36.C36_read_partial",
    "Gb.C36.C36_skip",
    "Gb.C36.C36_overrun_partial",
    "Gb.C36.C36_accepted_partial",
    "Gb.C36.C36_fails_write",
    "Gb.C36.C36_fails_torn"
   ],
   "note": "Doesn't hold if something has been read from the queue by the writer's side, or if the overrun happens in the middle of gbinder_fmq_read (C36_fails_*). Proved otherwise."
  },
  {
   "property": "C37",
   "status": "proved",
   "theorems": [
    "Gb.C37.C37_size",
    "Gb.C37.C37_accepted",
    "Gb.C37.C37_layout",
    "Gb.C37.C37_mapping",
    "Gb.C37.C37_fails_large"
   ],
   "note": "For the sizes which fit in the descriptor fields. C37_fails_large shows what happens if they don't."
  },
  {
   "property": "C38",
   "status": "partial",
   "theorems": [
    "Gb.C38.C38_bits",
    "Gb.C38.C38_once",
    "Gb.C38.C38_mask",
    "Gb.C38.C38_wakeup_partial",
    "Gb.C38.C38_single_partial",
    "Gb.C38.C38_fails_wakeup",
    "Gb.C38.C38_check"
   ],
   "note": "What is returned is proved for all interleavings (C38_bits, C38_once, C38_mask). That a sleeping thread wakes up and gets its bit is proved for a kernel which wakes up all the threads and for a single waiter, and fails for two waiters with Linux (C38_fails_wakeup)."
  },
  {
   "property": "C39",
   "status": "proved",
   "theorems": [
    "Gb.C39.C39_present",
    "Gb.C39.C39_found",
    "Gb.C39.C39_timeout",
    "Gb.C39.C39_bound",
    "Gb.C39.C39_returns",
    "Gb.C39.C39_prompt",
    "Gb.C39.C39_forever"
   ],
   "note": "The wait loop with a clock, any schedule of pings: found as soon as a ping succeeds, given up not earlier than the timeout and within one sleep of it, waits forever if asked to."
  },
  {
   "property": "C40",
   "status": "partial",
   "theorems": [
    "Gb.C40.C40_timer_partial",
    "Gb.C40.C40_gone_partial",
    "Gb.C40.C40_safe_partial",
    "Gb.C40.C40_signals_partial",
    "Gb.C40.C40_told_partial",
    "Gb.C40.C40_intervals_partial",
    "Gb.C40.C40_polls",
    "Gb.C40.C40_fails_twice",
    "Gb.C40.C40_fails_freed",
    "Gb.C40.C40_fails_signals"
   ],
   "note": "Proved for any schedule as long as there is one GBinderServiceManager object per device. With several (of different types) sharing the remote object each of them still has a timer running (C40_polls), but there may be two of them, the signal may be repeated, and a timer may fire after its object has been freed (C40_fails_*)."
  },
  {
   "property": "C41",
   "status": "partial",
   "theorems": [
    "Gb.C41.C41_asked_partial",
    "Gb.C41.C41_absent_partial",
    "Gb.C41.C41_watched_partial",
    "Gb.C41.C41_fails_abandoned",
    "Gb.C41.C41_fails_other"
   ],
   "note": "One object per device. Names with handlers are always watched, nothing is watched while the service manager is not there. That nothing else is watched is proved unless there are abandoned names by the time the service manager comes back; those are watched again (C41_fails_*)."
  },
  {
   "property": "C42",
   "status": "partial",
   "theorems": [
    "Gb.C42.C42_hidl",
    "Gb.C42.C42_refused",
    "Gb.C42.C42_idempotent_partial",
    "Gb.C42.C42_fails_slash",
    "Gb.C42.C42_delivered",
    "Gb.C42.C42_add"
   ],
   "note": "Everything but idempotence for names beginning with a slash, which fails (C42_fails_slash)."
  },
  {
   "property": "C43",
   "status": "partial",
   "theorems": [
    "Gb.C43.C43_announced_partial",
    "Gb.C43.C43_polls_partial",
    "Gb.C43.C43_known_partial",
    "Gb.C43.C43_fails"
   ],
   "note": "Lists without duplicates: with duplicates a name is announced again with every poll (C43_fails)."
  },
  {
   "property": "C44",
   "status": "partial",
   "theorems": [
    "Gb.C44.C44_once",
    "Gb.C44.C44_gone",
    "Gb.C44.C44_safe",
    "Gb.C44.C44_present_partial",
    "Gb.C44.C44_absent_partial",
    "Gb.C44.C44_retry",
    "Gb.C44.C44_fails_two",
    "Gb.C44.C44_fails_wait"
   ],
   "note": "C44_once, C44_gone, C44_safe and C44_retry hold for all histories. The clauses about what a service name waits for while the manager is present or absent (C44_present_partial, C44_absent_partial) are proved for histories with a single service manager object per device which isn't waited for from its own presence handler; C44_fails_two and C44_fails_wait show that they are false otherwise."
  },
  {
   "property": "C45",
   "status": "proved",
   "theorems": [
    "Gb.C45.C45_right",
    "Gb.C45.C45_created",
    "Gb.C45.C45_refused",
    "Gb.C45.C45_order",
    "Gb.C45.C45_none",
    "Gb.C45.C45_single",
    "Gb.C45.C45_received"
   ],
   "note": "All sets of ranges and codes; the sorting function is any correct one."
  },
  {
   "property": "C46",
   "status": "partial",
   "theorems": [
    "Gb.C46.C46_refused",
    "Gb.C46.C46_add_null",
    "Gb.C46.C46_cases",
    "Gb.C46.C46_sent",
    "Gb.C46.C46_status",
    "Gb.C46.C46_add",
    "Gb.C46.C46_add_dead",
    "Gb.C46.C46_fails_status",
    "Gb.C46.C46_fails_add",
    "Gb.C46.C46_fails_exception"
   ],
   "note": "Nothing is submitted, NULL/0/negative is returned (C46_refused); success of registration implies a reply with status zero (C46_add). Missing: the status isn't set when a synchronous transaction is refused (C46_fails_status), so that add_service returns an uninitialized variable if the manager is dead (C46_fails_add); the contents of the reply are ignored (C46_fails_exception)."
  },
  {
   "property": "C47",
   "status": "partial",
   "theorems": [
    "Gb.C47.C47_safe",
    "Gb.C47.C47_order",
    "Gb.C47.C47_freed",
    "Gb.C47.C47_replaced",
    "Gb.C47.C47_owner",
    "Gb.C47.C47_valid",
    "Gb.C47.C47_left",
    "Gb.C47.C47_ends",
    "Gb.C47.C47_null",
    "Gb.C47.C47_fails_null",
    "Gb.C47.C47_reset"
   ],
   "note": "Everything registered with a parcel (memory, descriptors, references, callbacks) is released exactly once and in order, when the parcel is freed or its contents are replaced. Not so if the writer is NULL (C47_fails_null)."
  },
  {
   "property": "C48",
   "status": "partial",
   "theorems": [
    "Gb.C48.C48_protocol_names",
    "Gb.C48.C48_manager_names",
    "Gb.C48.C48_protocol",
    "Gb.C48.C48_manager",
    "Gb.C48.C48_explicit",
    "Gb.C48.C48_protocol_partial",
    "Gb.C48.C48_manager_partial",
    "Gb.C48.C48_answer",
    "Gb.C48.C48_fails_unknown"
   ],
   "note": "C48_protocol, C48_manager and C48_answer give the exact rule for all histories of file changes. The rule of the property (unknown values don't count) is proved if no file has unknown values (C48_protocol_partial, C48_manager_partial); C48_fails_unknown shows that it's false otherwise."
  },
  {
   "property": "C49",
   "status": "proved",
   "theorems": [
    "Gb.C49.C49_stored",
    "Gb.C49.C49_original",
    "Gb.C49.C49_kept",
    "Gb.C49.C49_once",
    "Gb.C49.C49_open",
    "Gb.C49.C49_left",
    "Gb.C49.C49_closes",
    "Gb.C49.C49_listed",
    "Gb.C49.C49_received",
    "Gb.C49.C49_read"
   ],
   "note": "The duplicate is what is stored in the parcel, it belongs to the parcel and is closed once; received descriptors are closed when the buffer is released, exactly those which the kernel has installed. A descriptor which could not be duplicated is passed on as it is and not closed (C49_original)."
  },
  {
   "property": "C50",
   "status": "partial",
   "theorems": [
    "Gb.C50.C50_safe_partial",
    "Gb.C50.C50_kept_partial",
    "Gb.C50.C50_forwarded",
    "Gb.C50.C50_answer_partial",
    "Gb.C50.C50_result_partial",
    "Gb.C50.C50_delivered_partial",
    "Gb.C50.C50_once",
    "Gb.C50.C50_waiting",
    "Gb.C50.C50_handle",
    "Gb.C50.C50_released",
    "Gb.C50.C50_contents",
    "Gb.C50.C50_header_partial",
    "Gb.C50.C50_reply",
    "Gb.C50.C50_fails_freed",
    "Gb.C50.C50_fails_nested",
    "Gb.C50.C50_fails_empty",
    "Gb.C50.C50_fails_header"
   ],
   "note": "Safety holds for every step but the rest of the reply callback (C50_fails_freed), and for that one too if somebody keeps a reference to the proxy (C50_kept_partial). The request is answered exactly once with the result if it was received by a looper thread, and the result can be delivered as long as the transaction exists (C50_delivered_partial); it's answered before there is a result if received by the main thread (C50_fails_nested). Contents are copied (C50_contents, C50_reply) and the header is right if both sides have the same protocol (C50_header_partial, C50_fails_header). A request without data crashes the sender (C50_fails_empty)."
  },
  {
   "property": "C51",
   "status": "partial",
   "theorems": [
    "Gb.C51.C51_safe",
    "Gb.C51.C51_live",
    "Gb.C51.C51_for",
    "Gb.C51.C51_freed",
    "Gb.C51.C51_new",
    "Gb.C51.C51_same_partial",
    "Gb.C51.C51_one_partial",
    "Gb.C51.C51_device",
    "Gb.C51.C51_protocol",
    "Gb.C51.C51_fails_race",
    "Gb.C51.C51_fails_later"
   ],
   "note": "Objects returned by gbinder_ipc_new are never freed ones, for all interleavings of threads (C51_safe, C51_live). The same object is returned while it is referenced provided that no lookup has found an object which was about to be removed from the table (C51_same_partial, C51_one_partial); not so otherwise (C51_fails_race, C51_fails_later)."
  },
  {
   "property": "C52",
   "status": "partial",
   "theorems": [
    "Gb.C52.C52_list",
    "Gb.C52.C52_returns",
    "Gb.C52.C52_endless",
    "Gb.C52.C52_services",
    "Gb.C52.C52_aidl3_partial",
    "Gb.C52.C52_aidl3_negative",
    "Gb.C52.C52_aidl3_services_partial",
    "Gb.C52.C52_hidl",
    "Gb.C52.C52_no_reply",
    "Gb.C52.C52_no_list",
    "Gb.C52.C52_code",
    "Gb.C52.C52_query",
    "Gb.C52.C52_paged",
    "Gb.C52.C52_listed_partial",
    "Gb.C52.C52_fails_size",
    "Gb.C52.C52_fails_null"
   ],
   "note": "C52_list, C52_returns, C52_services, C52_query, C52_paged and C52_hidl are complete. For aidl3 and aidl4 it's assumed that there are no NULL strings in the reply (C52_aidl3_partial, C52_listed_partial): the list ends at the first one of those (C52_fails_null). The number of names isn't checked against the size of the reply (C52_fails_size)."
  },
  {
   "property": "C53",
   "status": "proved",
   "theorems": [
    "Gb.C53.C53_no_leak"
   ],
   "note": ""
  },
  {
   "property": "C54",
   "status": "partial",
   "theorems": [
    "Gb.C54.C54_in_bounds_partial",
    "Gb.C54.C54_overwrite_partial",
    "Gb.C54.C54_fails_fmq",
    "Gb.C54.C54_fails"
   ],
   "note": "False for descriptor arrays on 64-bit (C54_fails): append_fda_object reserves 28 bytes for a 32-byte object. Everything else, and the 32-bit ABI, is proved."
  },
  {
   "property": "C55",
   "status": "proved",
   "theorems": [
    "Gb.C55.C55_transaction",
    "Gb.C55.C55_reply",
    "Gb.C55.C55_status"
   ],
   "note": ""
  },
  {
   "property": "C56",
   "status": "proved",
   "theorems": [
    "Gb.C56.C56_read",
    "Gb.C56.C56_transact",
    "Gb.C56.C56_transaction",
    "Gb.C56.C56_once",
    "Gb.C56.C56_acquire_done",
    "Gb.C56.C56_dead_binder_done",
    "Gb.C56.C56_death_notification",
    "Gb.C56.C56_refs",
    "Gb.C56.C56_looper",
    "Gb.C56.C56_free_buffer",
    "Gb.C56.C56_refs_kernel",
    "Gb.C56.C56_death_kernel",
    "Gb.C56.C56_pointers_kernel",
    "Gb.C56.C56_acks_kernel",
    "Gb.C56.C56_looper_kernel",
    "Gb.C56.C56_words"
   ],
   "note": "gbinder_driver_write (single commands) takes for granted that the kernel consumes everything; what is written is well formed in any case."
  },
  {
   "property": "C57",
   "status": "proved",
   "theorems": [
    "Gb.C57.C57_fd",
    "Gb.C57.C57_object",
    "Gb.C57.C57_null",
    "Gb.C57.C57_buffer"
   ],
   "note": ""
  },
  {
   "property": "C58",
   "status": "partial",
   "theorems": [
    "Gb.C58.C58_told_partial",
    "Gb.C58.C58_called_partial",
    "Gb.C58.C58_fails_second",
    "Gb.C58.C58_fails_meanwhile"
   ],
   "note": "Missing: a second handler for the same name (C58_fails_second), and a handler added while a list is being processed, after its name has been announced (C58_fails_meanwhile); neither is ever called if the service stays registered."
  },
  {
   "property": "C59",
   "status": "proved",
   "theorems": [
    "Gb.C59.C59_code",
    "Gb.C59.C59_aidl",
    "Gb.C59.C59_hidl"
   ],
   "note": "AIDL names are valid Unicode text (C18.NameOk)."
  },
  {
   "property": "C60",
   "status": "proved",
   "theorems": [
    "Gb.C60.C60_code",
    "Gb.C60.C60_query",
    "Gb.C60.C60_query_hidl",
    "Gb.C60.C60_asked",
    "Gb.C60.C60_answer",
    "Gb.C60.C60_null"
   ],
   "note": "AIDL names are valid Unicode text (C18.NameOk)."
  },
  {
   "property": "C61",
   "status": "partial",
   "theorems": [
    "Gb.C61.C61_safe",
    "Gb.C61.C61_life",
    "Gb.C61.C61_names",
    "Gb.C61.C61_open",
    "Gb.C61.C61_freed",
    "Gb.C61.C61_released",
    "Gb.C61.C61_held",
    "Gb.C61.C61_registered",
    "Gb.C61.C61_new",
    "Gb.C61.C61_args",
    "Gb.C61.C61_withdrawn",
    "Gb.C61.C61_told",
    "Gb.C61.C61_dead_partial",
    "Gb.C61.C61_fails_stale",
    "Gb.C61.C61_fails_missed"
   ],
   "note": "Memory safety, naming, publishing on creation and on notification, withdrawal on death and on free are proved for all histories. Requests never go to a dead object once the handlers have run, provided that the registration isn't handled between the death of the object and the bridge's death handler (C61_dead_partial, C61_fails_stale). A registration which is handled before the death of the previous object is lost: the bridge then has nothing to publish although the service is there (C61_fails_missed)."
  },
  {
   "property": "C62",
   "status": "proved",
   "theorems": [
    "Gb.C62.C62_safe",
    "Gb.C62.C62_life",
    "Gb.C62.C62_pending",
    "Gb.C62.C62_running",
    "Gb.C62.C62_over",
    "Gb.C62.C62_unused",
    "Gb.C62.C62_once",
    "Gb.C62.C62_freed",
    "Gb.C62.C62_cancelled",
    "Gb.C62.C62_timer",
    "Gb.C62.C62_timer_freed",
    "Gb.C62.C62_timer_armed",
    "Gb.C62.C62_routes",
    "Gb.C62.C62_interval"
   ],
   "note": "All clauses, for all interleavings of calls and of the main loop. GLib's sources are modelled as described in gmain.c (reference counts of sources and of their callback data)."
  },
  {
   "property": "C63",
   "status": "partial",
   "theorems": [
    "Gb.C63.C63_code",
    "Gb.C63.C63_request",
    "Gb.C63.C63_told",
    "Gb.C63.C63_only",
    "Gb.C63.C63_status",
    "Gb.C63.C63_payload_partial",
    "Gb.C63.C63_handlers_partial",
    "Gb.C63.C63_fails_char",
    "Gb.C63.C63_safe_partial",
    "Gb.C63.C63_fails_freed",
    "Gb.C63.C63_waiting",
    "Gb.C63.C63_delivered",
    "Gb.C63.C63_one",
    "Gb.C63.C63_object",
    "Gb.C63.C63_released_partial",
    "Gb.C63.C63_completed_partial",
    "Gb.C63.C63_fails_leak",
    "Gb.C63.C63_accepted"
   ],
   "note": "Full statement fails: instances with e.g. an underscore in the name are not reported (C63_fails_char), the name may be read after it was freed if the last reference to GBinderServiceManager is released at the wrong moment (C63_fails_freed), a refused transaction leaks (C63_fails_leak), empty buffers (C03_fails_hidl_string). Everything else proved for all histories and payloads."
  },
  {
   "property": "C64",
   "status": "proved",
   "theorems": [
    "Gb.C64.C64_request",
    "Gb.C64.C64_reply",
    "Gb.C64.C64_status",
    "Gb.C64.C64_callback"
   ],
   "note": "C64_request: items of all kinds, appended to a request of the client, are read by the receiver in the same order; code, one-way flag, sender, target object and interface are those of the call. C64_reply, C64_status: the same for replies and statuses. C64_callback: calling an object which was passed along. The kernel is specified by Spec/Call (Carried), Spec/Transfer, Spec/References, Spec/Installed. Handles of aidl3 and handles of the receiver's own objects are excluded by Item.Ok (see C19)."
  },
  {
   "property": "C65",
   "status": "partial",
   "theorems": [
    "Gb.C65.C65_open",
    "Gb.C65.C65_fds",
    "Gb.C65.C65_maps",
    "Gb.C65.C65_apart",
    "Gb.C65.C65_life",
    "Gb.C65.C65_end",
    "Gb.C65.C65_received_partial",
    "Gb.C65.C65_hangs",
    "Gb.C65.C65_fails_stuck",
    "Gb.C65.C65_calls_partial",
    "Gb.C65.C65_fails_reused"
   ],
   "note": "Proved: everything while no looper hangs, also with threads which are interrupted between reading the number of the descriptor and calling the kernel (C65_calls_partial reduces them to those which aren't). If a looper hangs the device is closed under those who still use it: what has been received isn't there any more (C65_fails_stuck), and a thread may call the kernel with a number which belongs to somebody else meanwhile (C65_fails_reused). C65_fds, C65_maps, C65_apart, C65_life, C65_end, C65_hangs allow a looper to hang but not to be interrupted within a call."
  },
  {
   "property": "C66",
   "status": "partial",
   "theorems": [
    "Gb.C66.C66_safe_partial",
    "Gb.C66.C66_live_partial",
    "Gb.C66.C66_freed_partial",
    "Gb.C66.C66_kind_partial",
    "Gb.C66.C66_for_partial",
    "Gb.C66.C66_same_partial",
    "Gb.C66.C66_one_partial",
    "Gb.C66.C66_new_partial",
    "Gb.C66.C66_protocol_partial",
    "Gb.C66.C66_fails_inherited",
    "Gb.C66.C66_fails_dangling",
    "Gb.C66.C66_fails_protocol",
    "Gb.C66.C66_fails_empty",
    "Gb.C66.C66_fails_race"
   ],
   "note": "Proved if nobody asks for a manager whose last reference is being dropped, the name of the device is not empty, and aidl2/aidl3/aidl4 are first used when there is no aidl manager. Each of these conditions is needed: C66_fails_race, C66_fails_empty, C66_fails_inherited and C66_fails_dangling show what happens otherwise. Whoever asks for another protocol gets the old one: C66_fails_protocol."
  },
  {
   "property": "C67",
   "status": "proved",
   "theorems": [
    "Gb.C67.C67_safe",
    "Gb.C67.C67_life",
    "Gb.C67.C67_told",
    "Gb.C67.C67_performed",
    "Gb.C67.C67_cancel",
    "Gb.C67.C67_last",
    "Gb.C67.C67_completed",
    "Gb.C67.C67_progress",
    "Gb.C67.C67_lists",
    "Gb.C67.C67_names",
    "Gb.C67.C67_released",
    "Gb.C67.C67_refs",
    "Gb.C67.C67_refused",
    "Gb.C67.C67_reply",
    "Gb.C67.C67_keep"
   ],
   "note": "All of it, for all schedules. Exit of the process (gbinder_ipc_exit) is a step of the model, C67_completed and C67_progress exclude it. C67_progress: from every state which can be reached a call can be finished by the steps of its own threads alone, and then the callback has been called unless the call was cancelled."
  },
  {
   "property": "C68",
   "status": "partial",
   "theorems": [
    "Gb.C68.C68_safe_partial",
    "Gb.C68.C68_borrow_partial",
    "Gb.C68.C68_once_partial",
    "Gb.C68.C68_all_partial",
    "Gb.C68.C68_progress_partial",
    "Gb.C68.C68_after_partial",
    "Gb.C68.C68_callbacks_partial",
    "Gb.C68.C68_fails_leak"
   ],
   "note": "Everything about the objects is proved: they stay valid until the event loop runs or the manager is gone and are released exactly once. Missing: the callback itself is leaked each time it runs (C68_fails_leak)."
  },
  {
   "property": "C69",
   "status": "partial",
   "theorems": [
    "Gb.C69.C69_safe_partial",
    "Gb.C69.C69_refs",
    "Gb.C69.C69_all_partial",
    "Gb.C69.C69_keeps_partial",
    "Gb.C69.C69_covers_partial",
    "Gb.C69.C69_null",
    "Gb.C69.C69_fds",
    "Gb.C69.C69_fails_fd",
    "Gb.C69.C69_fails_trunc",
    "Gb.C69.C69_fails_mmap",
    "Gb.C69.C69_fails_large",
    "Gb.C69.C69_fails_type"
   ],
   "note": "Proved for types which exist, queues under 4 gigabytes and mmap which doesn't fail where the code doesn't check (C69_fails_type, C69_fails_large, C69_fails_mmap are counterexamples otherwise); references and the outcome of gbinder_fmq_new are proved without restrictions. Missing: the file descriptor is never closed (C69_fails_fd, C69_fails_trunc)."
  },
  {
   "property": "C70",
   "status": "proved",
   "theorems": [
    "Gb.C70.C70_safe",
    "Gb.C70.C70_life",
    "Gb.C70.C70_told",
    "Gb.C70.C70_performed",
    "Gb.C70.C70_cancel",
    "Gb.C70.C70_destroyed",
    "Gb.C70.C70_over",
    "Gb.C70.C70_once",
    "Gb.C70.C70_kept",
    "Gb.C70.C70_client",
    "Gb.C70.C70_request",
    "Gb.C70.C70_all",
    "Gb.C70.C70_completed",
    "Gb.C70.C70_progress",
    "Gb.C70.C70_call",
    "Gb.C70.C70_new",
    "Gb.C70.C70_same",
    "Gb.C70.C70_dead",
    "Gb.C70.C70_null"
   ],
   "note": "The life of a call (C70_life) and what follows from it for the callbacks, which requests are used, and the references to all objects involved (kept, freed once, nothing left). C70_progress: from every state which can be reached a call can be finished by the steps of its own threads alone, and then the reply callback has been called unless the call was cancelled (or gbinder_ipc_exit was called)."
  },
  {
   "property": "C71",
   "status": "proved",
   "theorems": [
    "Gb.C71.C71_request",
    "Gb.C71.C71_reply",
    "Gb.C71.C71_safe",
    "Gb.C71.C71_nothing",
    "Gb.C71.C71_status",
    "Gb.C71.C71_null",
    "Gb.C71.C71_append",
    "Gb.C71.C71_both"
   ],
   "note": "C71_request, C71_reply, C71_both: end to end, on top of C64. C71_safe excludes accesses outside of the data; the integer overflow of length prefixes (C03_fails_string16) is the one thing that can still go wrong."
  },
  {
   "property": "C72",
   "status": "partial",
   "theorems": [
    "Gb.C72.C72_waits_partial",
    "Gb.C72.C72_idle",
    "Gb.C72.C72_transact_steps",
    "Gb.C72.C72_read_steps",
    "Gb.C72.C72_returns_partial",
    "Gb.C72.C72_read_returns",
    "Gb.C72.C72_fails_frozen",
    "Gb.C72.C72_fails_pending",
    "Gb.C72.C72_fails_error"
   ],
   "note": "Proved for the answers the library knows of: C72_waits_partial and C72_returns_partial for transactions, C72_idle and C72_read_returns for reading, C72_transact_steps and C72_read_steps for not going on forever. The full statement is false: BR_FROZEN_REPLY, BR_TRANSACTION_PENDING_FROZEN and BR_ERROR end a transaction, but they are ignored and the call goes on waiting (C72_fails_frozen, C72_fails_pending, C72_fails_error)."
  },
  {
   "property": "C73",
   "status": "partial",
   "theorems": [
    "Gb.C73.C73_once_partial",
    "Gb.C73.C73_no_wait_partial",
    "Gb.C73.C73_ended_partial",
    "Gb.C73.C73_stopped_partial",
    "Gb.C73.C73_stays_partial",
    "Gb.C73.C73_joined_partial",
    "Gb.C73.C73_forever_partial",
    "Gb.C73.C73_fails_exit",
    "Gb.C73.C73_fails_burst",
    "Gb.C73.C73_fails_create",
    "Gb.C73.C73_fails_create_blocked"
   ],
   "note": "Nobody joins the thread of a looper which drops its own last reference: one which fails (C73_fails_exit) and also one which exits because there are enough others after a burst of blocked transactions (C73_fails_burst); it stays that way (C73_forever_partial). If pthread_create fails then a thread which doesn't exist is joined (C73_fails_create). Everything else is proved, assuming that threads can be created and, like C28, that no looper waits for a blocked transaction while the loopers are being stopped."
  },
  {
   "property": "C74",
   "status": "partial",
   "theorems": [
    "Gb.C74.C74_safe_partial",
    "Gb.C74.C74_unlocked_partial",
    "Gb.C74.C74_outside_partial",
    "Gb.C74.C74_no_deadlock_partial",
    "Gb.C74.C74_stops_partial",
    "Gb.C74.C74_looper",
    "Gb.C74.C74_fails_create",
    "Gb.C74.C74_fails_exit"
   ],
   "note": "The full statement fails: pthread_create failing makes the code call pthread_join for a thread which doesn't exist with locks held (C74_fails_create), and gbinder_ipc_exit may wait forever for an asynchronous call which has received a request (C74_fails_exit). Theorems assume that pthread_create works; C74_stops_partial is about loopers which don't release the last reference to their GBinderIpc. Kernel calls and the application's callbacks are assumed to return."
  },
  {
   "property": "C75",
   "status": "partial",
   "theorems": [
    "Gb.C75.C75_once",
    "Gb.C75.C75_freed_once",
    "Gb.C75.C75_safe_partial",
    "Gb.C75.C75_destroyed_partial",
    "Gb.C75.C75_objects_partial",
    "Gb.C75.C75_progress_partial",
    "Gb.C75.C75_ends_partial",
    "Gb.C75.C75_fails_submit",
    "Gb.C75.C75_fails_callback",
    "Gb.C75.C75_fails_open",
    "Gb.C75.C75_fails_nested"
   ],
   "note": "Partial because: a transaction submitted by a destroy callback which gbinder_ipc_exit has called is neither executed nor destroyed (C75_fails_submit); one whose completion callback calls exit() isn't destroyed (C75_fails_callback); a device opened by such a destroy callback isn't handled (C75_fails_open); if such a destroy callback runs the event loop then NULL may be dereferenced (C75_fails_nested). Those are the hypotheses of the partial theorems; C75_once and C75_freed_once need none of them."
  },
  {
   "property": "C76",
   "status": "partial",
   "theorems": [
    "Gb.C76.C76_alive_partial",
    "Gb.C76.C76_same_partial",
    "Gb.C76.C76_found_partial",
    "Gb.C76.C76_call_partial",
    "Gb.C76.C76_quiet_partial",
    "Gb.C76.C76_freed_partial",
    "Gb.C76.C76_safe_partial",
    "Gb.C76.C76_released_partial",
    "Gb.C76.C76_fails_dropped",
    "Gb.C76.C76_fails_reuse"
   ],
   "note": "Model/Sharing composes the model of a local object (C30, C32) with the kernel's reference counting algorithm and an arbitrary number of other processes. Proved for all executions in which the application keeps its own reference until the request or the reply has been sent: the object is alive and is the same one while anybody has a reference, BR_ACQUIRE and BR_RELEASE always find it (which is what C32 assumes), and it's freed in the end: when nobody has references, whatever hasn't been done yet can be done without anyone else's help, and then the object is gone (C76_released_partial). Without that it's false: gbinder_writer_data_append_local_object doesn't take a reference to the object, so if the application drops its own before sending the request, another process gets a reference to a freed object (C76_fails_dropped), or to another object which has been allocated there (C76_fails_reuse)."
  },
  {
   "property": "C77",
   "status": "partial",
   "theorems": [
    "Gb.C77.C77_target_partial",
    "Gb.C77.C77_names",
    "Gb.C77.C77_read_partial",
    "Gb.C77.C77_dead_partial",
    "Gb.C77.C77_known_partial",
    "Gb.C77.C77_fails_stale",
    "Gb.C77.C77_fails_window",
    "Gb.C77.C77_fails_bridged"
   ],
   "note": "Proved when a handle isn't reused by the kernel while the library still has an object for it in its table or an unread BR_DEAD_BINDER for it, and when all the objects are acquired. Both are necessary: C77_fails_stale (BR_DEAD_BINDER identifies the object by its handle, so the new owner of the number is declared dead), C77_fails_window (BC_RELEASE is sent before the dead object leaves the table), C77_fails_bridged (objects created by bridges and proxies aren't acquired and can be handed out to the application)."
  },
  {
   "property": "C78",
   "status": "partial",
   "theorems": [
    "Gb.C78.C78_target_partial",
    "Gb.C78.C78_known_partial",
    "Gb.C78.C78_send_partial",
    "Gb.C78.C78_call_partial",
    "Gb.C78.C78_accept_partial",
    "Gb.C78.C78_balance_partial",
    "Gb.C78.C78_gone_partial",
    "Gb.C78.C78_freed_partial",
    "Gb.C78.C78_released_partial",
    "Gb.C78.C78_delivered_partial",
    "Gb.C78.C78_fails_empty"
   ],
   "note": "Proved for calls which have some data. An empty call: its buffer is freed before the call is handled, nothing keeps the proxy and the handle acquired, and the call may be sent to another object which has got the same handle (C78_fails_empty). C78_delivered_partial: calls which have been made can always be received and handled. C78_released_partial: when nobody has the proxy, then whatever hasn't been done yet can be done without anyone else's help, and after that the proxy is freed and the handle is released. The kernel and the order in which GLib dispatches sources of the same priority are a part of the model."
  },
  {
   "property": "C79",
   "status": "partial",
   "theorems": [
    "Gb.C79.C79_exclusive_partial",
    "Gb.C79.C79_no_race_partial",
    "Gb.C79.C79_ordered_partial",
    "Gb.C79.C79_atomic_partial",
    "Gb.C79.C79_locks",
    "Gb.C79.C79_safe_partial",
    "Gb.C79.C79_fails_protocols",
    "Gb.C79.C79_fails_types",
    "Gb.C79.C79_fails_config",
    "Gb.C79.C79_fails_fd",
    "Gb.C79.C79_fails_next",
    "Gb.C79.C79_fails_dead"
   ],
   "note": "Tables of objects, of GBinderIpc's and of service managers and the lists of loopers are only accessed under their mutexes, on all schedules (exclusive, ordered by unlock/lock, atomic), and the model refines the one of C74. The full statement fails: things loaded on first use (protocols, types of service managers, configuration), the descriptor of a driver which gets closed, next pointers of loopers which are being stopped and the dead flag of remote objects are accessed without synchronisation (C79_fails_*)."
  },
  {
   "property": "C80",
   "status": "proved",
   "theorems": [
    "Gb.C80.C80_read",
    "Gb.C80.C80_only",
    "Gb.C80.C80_written",
    "Gb.C80.C80_header_sent",
    "Gb.C80.C80_header_received",
    "Gb.C80.C80_hidl_string",
    "Gb.C80.C80_hidl_copy",
    "Gb.C80.C80_hidl_null",
    "Gb.C80.C80_hidl_vec",
    "Gb.C80.C80_hidl_strings",
    "Gb.C80.C80_hidl_string_received",
    "Gb.C80.C80_hidl_vec_received",
    "Gb.C80.C80_hidl_strings_received"
   ],
   "note": "Reading: C80_read and C80_only (both directions, all bytes). Writing: C80_written. Headers: C80_header_sent and C80_header_received. HIDL strings and vectors: C80_hidl_* (sent) and C80_hidl_*_received. Android's classes are specified in Spec/Android and Spec/AndroidHidl independently of libgbinder; Android's sources aren't available here, so that specification is written from knowledge of them and is part of the trusted base."
  },
  {
   "property": "C81",
   "status": "proved",
   "theorems": [
    "Gb.C81.C81_received",
    "Gb.C81.C81_read",
    "Gb.C81.C81_read_progress",
    "Gb.C81.C81_reader",
    "Gb.C81.C81_read_safe",
    "Gb.C81.C81_sent",
    "Gb.C81.C81_taken",
    "Gb.C81.C81_write",
    "Gb.C81.C81_write_progress",
    "Gb.C81.C81_writer",
    "Gb.C81.C81_write_safe"
   ],
   "note": "Synchronized queues of less than 4 GiB, less than 2^64 bytes written in total (C34 is about the rest). The rules which the other end follows are those of Android's libfmq, written from knowledge of it (Spec/FmqPeer)."
  },
  {
   "property": "C82",
   "status": "proved",
   "theorems": [
    "Gb.C82.C82_sent"
   ],
   "note": "Queues of less than 4 GiB (see C37 for larger ones), as far as the call itself isn't out of bounds (C54). How Android reads it is Spec/AndroidFmq, written from knowledge of libhidl and libhwbinder; that the kernel replaces the file descriptors by ones which mean the same is Kernel.FdArrays. The version of the handle is 12 + 4 * num_fds where Android has 12, nobody looks at it when the handle is read."
  },
  {
   "property": "C83",
   "status": "proved",
   "theorems": [
    "Gb.C83.C83_fd",
    "Gb.C83.C83_handle",
    "Gb.C83.C83_null"
   ],
   "note": "How Android reads them is Spec/AndroidHandle (Parcel::readFileDescriptor and readNullableNativeHandleNoDup), written from knowledge of libbinder and libhwbinder. Handles by themselves can't be written by users of this version: gbinder_writer_append_fds is declared but not defined, only the code behind it is proved to be right."
  },
  {
   "property": "C84",
   "status": "partial",
   "theorems": [
    "Gb.C84.C84_struct_partial",
    "Gb.C84.C84_structVec_partial",
    "Gb.C84.C84_struct_received",
    "Gb.C84.C84_structVec_received",
    "Gb.C84.C84_fails_pointer"
   ],
   "note": "Proved for any type whose fields don't overlap, vectors nested to any depth, both sizes of pointers. What a structure consists of is Spec/Structs' sentStruct (a walk over memory), what Android gets is Parcel.readStruct (readBuffer, readEmbeddedBuffer for each of the fields). The direction from Android is complete, pointers to types with pointers included. In the direction to Android the code violates the rest: if a field is a pointer (GBINDER_WRITER_FIELD_POINTER) to a type with fields, these aren't written and the receiver gets the sender's addresses (C84_fails_pointer; gbinder_writer.c:784-787). NULL strings are refused by Android (see C80). Fields with handlers supplied by the application (write_buf callbacks other than the two in the library) aren't modelled."
  },
  {
   "property": "C85",
   "status": "partial",
   "theorems": [
    "Gb.C85.C85_presets",
    "Gb.C85.C85_add_partial",
    "Gb.C85.C85_fails_add12",
    "Gb.C85.C85_fails_add13",
    "Gb.C85.C85_get",
    "Gb.C85.C85_list",
    "Gb.C85.C85_found",
    "Gb.C85.C85_missing",
    "Gb.C85.C85_listed",
    "Gb.C85.C85_listed11",
    "Gb.C85.C85_hidl_add",
    "Gb.C85.C85_hidl_get",
    "Gb.C85.C85_hidl_list",
    "Gb.C85.C85_hidl_register",
    "Gb.C85.C85_hidl_found",
    "Gb.C85.C85_hidl_missing",
    "Gb.C85.C85_hidl_listed",
    "Gb.C85.C85_hidl_registered",
    "Gb.C85.C85_hidl_told"
   ],
   "note": "Proved: adding for the releases up to Android 11; looking up and listing for all of them; hwservicemanager, its replies and its notifications (C85_hidl_told, C85_hidl_registered; booleans are bytes there). Missing: adding a service to Android 12 and later with the preset for API level 31, where the code writes the stability of the object twice (C85_fails_add12: refused, C85_fails_add13: registered with other flags). C85_presets ties the releases to what the configuration chooses for an API level. How Android reads the requests is Spec/AndroidServices; the replies are assumed to be acceptable to the kernel."
  },
  {
   "property": "C86",
   "status": "proved",
   "theorems": [
    "Gb.C86.C86_ping",
    "Gb.C86.C86_descriptor",
    "Gb.C86.C86_ping_sent",
    "Gb.C86.C86_hidl_ping",
    "Gb.C86.C86_hidl_descriptor",
    "Gb.C86.C86_hidl_chain",
    "Gb.C86.C86_cast"
   ],
   "note": "The questions and how the answers are read are in Spec/AndroidQuestions. The replies are those of C33; what Android reads from them is by C80. Other questions which Android may ask (getHashChain, getDebugInfo, debug) are left to the function provided by the application, see C33_user. C86_ping_sent is the other direction: the code and the header of the pings sent by this library."
  },
  {
   "property": "C87",
   "status": "partial",
   "theorems": [
    "Gb.C87.C87_bounded",
    "Gb.C87.C87_no_more",
    "Gb.C87.C87_continues",
    "Gb.C87.C87_closed",
    "Gb.C87.C87_joined",
    "Gb.C87.C87_quick_partial",
    "Gb.C87.C87_failed",
    "Gb.C87.C87_stays",
    "Gb.C87.C87_served",
    "Gb.C87.C87_fails_interrupted",
    "Gb.C87.C87_fails_taken"
   ],
   "note": "Everything but the last part holds for all executions. The device has to be closed to get rid of a thread if poll has been interrupted by a signal (gbinder_driver_poll returns -1, which has POLLIN set, so that the thread reads although there may be nothing to read) or if another thread has taken the transaction which both were told about: C87_fails_interrupted, C87_fails_taken. C87_quick_partial shows that it isn't necessary otherwise, i.e. if there are no signals and there's one looper at a time."
  },
  {
   "property": "C88",
   "status": "partial",
   "theorems": [
    "Gb.C88.C88_order_partial",
    "Gb.C88.C88_once",
    "Gb.C88.C88_waits",
    "Gb.C88.C88_served",
    "Gb.C88.C88_safe",
    "Gb.C88.C88_fails_order",
    "Gb.C88.C88_fails_overlap",
    "Gb.C88.C88_fails_inorder"
   ],
   "note": "The order (C88_order_partial) is proved for objects all one-way calls to which have data; the buffer of a call without any data is freed before the handler is called (gbinder_driver.c:544-547), hence the kernel delivers the next one to another thread, which may be faster (C88_fails_order), or it's handled while the first one is blocked (C88_fails_overlap). That each call can be handled (C88_served) requires that the application hasn't dropped a request which it has blocked (C27_fails_dropped). The rest holds for all executions."
  },
  {
   "property": "C89",
   "status": "partial",
   "theorems": [
    "Gb.C89.C89_sync_partial",
    "Gb.C89.C89_completed",
    "Gb.C89.C89_single_partial",
    "Gb.C89.C89_taken",
    "Gb.C89.C89_limit",
    "Gb.C89.C89_safe",
    "Gb.C89.C89_served",
    "Gb.C89.C89_fails_order",
    "Gb.C89.C89_fails_overtaken",
    "Gb.C89.C89_waits",
    "Gb.C89.C89_fails_stuck"
   ],
   "note": "Proved for every number of threads: synchronous calls are sent before whatever is called after them, whatever is called after the completion of an asynchronous call is sent after it, asynchronous calls are taken by the threads of the pool in order, no more than 15 at once, and those which are waiting can be sent if the others return. The code doesn't keep the order of asynchronous calls: gbinder_client_transact hands them to up to 15 threads (gbinder_ipc.c:96, 1985, 2063-2064) which reach the kernel in any order (C89_fails_order), and a synchronous call made afterwards overtakes them (C89_fails_overtaken, even with one thread). With one thread asynchronous calls would be in order (C89_single_partial). If nobody replies to 15 calls, the 16th isn't sent (C89_fails_stuck). That GThreadPool takes tasks in the order in which they were pushed, with at most the given number of threads, is trusted."
  },
  {
   "property": "C90",
   "status": "proved",
   "theorems": [
    "Gb.C90.C90_own",
    "Gb.C90.C90_failed",
    "Gb.C90.C90_lost",
    "Gb.C90.C90_once",
    "Gb.C90.C90_active",
    "Gb.C90.C90_waits",
    "Gb.C90.C90_returns",
    "Gb.C90.C90_buffers_safe",
    "Gb.C90.C90_buffers",
    "Gb.C90.C90_buffers_own",
    "Gb.C90.C90_buffers_handling",
    "Gb.C90.C90_driver",
    "Gb.C90.C90_driver_idle"
   ],
   "note": "C90_own/_failed/_lost/_once: which call a reply or an error is taken for, in all executions. C90_active: a handler replies to the call it's handling. C90_waits: a thread for which there's nothing is waiting only for calls which haven't been replied to. C90_returns: all calls of a thread return if those who handle calls reply. C90_buffers*: none of that depends on how many commands the kernel stores in a read buffer at once, each gbinder_driver_transact having a buffer of its own (refinement of Model/NestedBuf to Model/Nested). C90_driver*: what a thread does about a command is what Model/Driver does about its bytes. The kernel's stacks of transactions are a part of the model (trusted, from knowledge of Linux). A frozen process's answer (BR_FROZEN_REPLY) isn't in this model: see C72_fails_frozen."
  },
  {
   "property": "C91",
   "status": "partial",
   "theorems": [
    "Gb.C91.C91_moves_partial",
    "Gb.C91.C91_single_partial",
    "Gb.C91.C91_ends",
    "Gb.C91.C91_returns_partial",
    "Gb.C91.C91_single_returns_partial",
    "Gb.C91.C91_async_partial",
    "Gb.C91.C91_fails_mutual"
   ],
   "note": "Processes which use libgbinder can wait for each other forever, see C91_fails_mutual: transactions are handled on the main thread, no matter which thread has received them, so if the main thread of A calls B and B's handler calls A back, the call back is received by another thread of A which waits for the main thread, which waits for B. Nothing which any thread does later helps. Proved otherwise: as long as a hierarchy of processes is observed, there is always something to do about calls which haven't been replied to (C91_moves_partial), only so much of it (C91_ends, which doesn't need the hierarchy), and once all of that is done, all calls have returned (C91_returns_partial). A single looper in each process which uses libgbinder is sufficient for that. The same holds with a single process which uses libgbinder as long as its main thread doesn't call itself (C91_single_partial, C91_single_returns_partial): the others, which handle calls on the thread which has received them, may call back to any depth. And it holds if main threads call nothing but asynchronously, whoever calls whom (C91_async_partial). Threads don't die here (see C90), and requests which are blocked with gbinder_remote_request_block are completed at some point."
  }
 ]
}