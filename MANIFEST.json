{
 "claims": [
  {
   "property": "C01",
   "status": "proved",
   "theorems": [
    "FNLog.C01_block_input_iff",
    "FNLog.C01_block_input_defined"
   ],
   "note": "Whenever the call is defined the answer is right; definedness under no-overflow and mask values 0..63."
  },
  {
   "property": "C02",
   "status": "proved",
   "theorems": [
    "FNLog.C02_dispatch_iff",
    "FNLog.C02_dispatch_defined"
   ],
   "note": ""
  },
  {
   "property": "C03",
   "status": "proved",
   "theorems": [
    "FNLog.C03_admission_iff_dispatch"
   ],
   "note": ""
  },
  {
   "property": "C04",
   "status": "proved",
   "theorems": [
    "FNLog.C04_mask",
    "FNLog.C04_device_white",
    "FNLog.C04_device_black",
    "FNLog.C04_other_lines"
   ],
   "note": ""
  },
  {
   "property": "C05",
   "status": "partial",
   "theorems": [
    "FNLog.C05_clamped_like_fatal",
    "FNLog.C05_push_accounting_partial",
    "FNLog.C05_device_accounting_partial",
    "FNLog.C05_counterexample",
    "FNLog.C05_counterexample_oob"
   ],
   "note": "Accounting is correct for priorities 0..6; proved false for larger ones."
  },
  {
   "property": "C06",
   "status": "proved",
   "theorems": [
    "FNLog.C06_exclusive_slot"
   ],
   "note": "Sequentially consistent interleavings; the Timely hypothesis rules out the compare-and-swap ABA which C12 exhibits."
  },
  {
   "property": "C07",
   "status": "proved",
   "theorems": [
    "FNLog.C07_at_most_once"
   ],
   "note": "Under Timely (no thread stalls between reading and swapping an index for a whole lap); see C12."
  },
  {
   "property": "C08",
   "status": "proved",
   "theorems": [
    "FNLog.C08_async_order"
   ],
   "note": "Async channels, under Timely."
  },
  {
   "property": "C09",
   "status": "proved",
   "theorems": [
    "FNLog.C09_bounded"
   ],
   "note": ""
  },
  {
   "property": "C10",
   "status": "proved",
   "theorems": [
    "FNLog.C10_all_published",
    "FNLog.C10_sync_all_output"
   ],
   "note": "Under Timely and without a stop."
  },
  {
   "property": "C100",
   "status": "partial",
   "theorems": [
    "FNLog.C100_output",
    "FNLog.C100_room",
    "FNLog.C100_lock_free",
    "FNLog.C100_all_return",
    "FNLog.C100_starvation_counterexample"
   ],
   "note": "Violated: a thread whose compare-and-swap on hold_idx_ loses every time never gets a slot although the schedule is fair (exhibited for ever). Holds: every acquired record is written, every slot is freed, while one waits another gets a slot, and with finitely many statements all return. Under the restriction of C12 on late compare-and-swaps."
  },
  {
   "property": "C101",
   "status": "partial",
   "theorems": [
    "FNLog.C101_stop_returns_partial",
    "FNLog.C101_sync_returns_partial",
    "FNLog.C101_sync_counterexample",
    "FNLog.C101_sync_lost_counterexample",
    "FNLog.C101_sync_stuck_counterexample"
   ],
   "note": "Violated for sync channels: a thread at the end of EnterProcChannel sets the stopped channel to RUNNING again, and a statement that waits behind a slot given up in between waits for ever (exhibited for two and for eleven slots, there with nine lines of returned statements lost); and a line that is published and not yet processed at the stop is never written (exhibited). Holds for async channels. If no thread is inside EnterProcChannel when a sync channel is stopped, every statement returns and exactly the lines processed until then are written. Under the restriction of C12 on late compare-and-swaps."
  },
  {
   "property": "C102",
   "status": "partial",
   "theorems": [
    "FNLog.C102_first_part_partial",
    "FNLog.C102_stopped_partial",
    "FNLog.C102_steady",
    "FNLog.C102_rotation_counterexample"
   ],
   "note": "Violated: fsync is called before fclose, so a file closed by rotation while its stream has something in its buffer is not on the disk, even after StopLogger (exhibited). Holds for the files StopLogger closes, and for all files if the buffers are empty at every rotation, in particular without rotation. Under the restrictions of C95."
  },
  {
   "property": "C103",
   "status": "partial",
   "theorems": [
    "FNLog.C103_device",
    "FNLog.C103_channel",
    "FNLog.C103_same_partial",
    "FNLog.C103_truncated_counterexample",
    "FNLog.C103_channel_number_counterexample"
   ],
   "note": "Violated: a channel reads its numbers with atoi, so that a filter with more than 32 bits takes and refuses the wrong identifies, and channel 4294967296 is channel 0 (both exhibited). Holds for devices, and for channels up to 32 bits; beyond that the difference is a multiple of 2^32."
  },
  {
   "property": "C104",
   "status": "partial",
   "theorems": [
    "FNLog.C104_returns_partial",
    "FNLog.C104_hang_counterexample"
   ],
   "note": "Violated: the thread of a channel that reads a changed configuration file may come to the lock just after StopLogger has taken it; StopLogger waits for the thread and the thread for the lock (exhibited, for ever). The other theorem says that StopLogger returns exactly when no thread of a channel is at this place. Missing: returning in every case, which is false."
  },
  {
   "property": "C105",
   "status": "proved",
   "theorems": [
    "FNLog.C105_sessions",
    "FNLog.C105_result",
    "FNLog.C105_threads",
    "FNLog.C105_nested"
   ],
   "note": "Under sequential consistency; creation of threads succeeds; late log statements on sync channels, which write channel_state_ (C95), are left out."
  },
  {
   "property": "C106",
   "status": "partial",
   "theorems": [
    "FNLog.C106_reaches_partial",
    "FNLog.C106_settled_partial"
   ],
   "note": "For schedules in which no compare-and-swap succeeds although its index went round the ring since it was loaded (C12). The first theorem is for async channels, the second for async channels, for sync channels whose files are never closed while they run, and for sync channels with one statement at a time (C92 shows that rotation with overlapping statements has to be excluded)."
  },
  {
   "property": "C107",
   "status": "partial",
   "theorems": [
    "FNLog.C107_writes_listed",
    "FNLog.C107_reads_listed",
    "FNLog.C107_work_reads_listed",
    "FNLog.C107_locked",
    "FNLog.C107_writes",
    "FNLog.C107_where_partial",
    "FNLog.C107_single_partial",
    "FNLog.C107_logger_state_counterexample",
    "FNLog.C107_channel_state_counterexample",
    "FNLog.C107_shm_counterexample",
    "FNLog.C107_hot_update_counterexample"
   ],
   "note": "Violated for logger_state_, channel_state_, shm_ and hot_update_ (all exhibited). Holds for async_threads; no two writes race; the racing reads are those without the lock, and those of the state of a channel by its thread or by the thread that starts or stops it. Log statements are the subject of C112."
  },
  {
   "property": "C108",
   "status": "proved",
   "theorems": [
    "FNLog.C108_one_at_a_time",
    "FNLog.C108_returns",
    "FNLog.C108_programs",
    "FNLog.C108_one_thread",
    "FNLog.C108_stopped",
    "FNLog.C108_endless"
   ],
   "note": "Under sequential consistency, for sound statements (no undefined filter, C32). That overlapping statements have to be excluded is shown by C13, C92, C95 and C101."
  },
  {
   "property": "C109",
   "status": "proved",
   "theorems": [
    "FNLog.C109_own_files"
   ],
   "note": "Renames and removes of the files of the devices succeed; bytes reach the file at once (for buffering see C90); what a device does for one log is not interleaved with others."
  },
  {
   "property": "C11",
   "status": "proved",
   "theorems": [
    "FNLog.C11_stop_drains",
    "FNLog.C11_worker_finishes"
   ],
   "note": ""
  },
  {
   "property": "C110",
   "status": "partial",
   "theorems": [
    "FNLog.C110_whole",
    "FNLog.C110_taken",
    "FNLog.C110_shared_partial",
    "FNLog.C110_moved",
    "FNLog.C110_nowhere_counterexample",
    "FNLog.C110_rotated_away_counterexample",
    "FNLog.C110_blocked_counterexample"
   ],
   "note": "Violated: a device that shares a file with one that rotates goes on writing to the inode it has open, and once this has no name its lines are counted but are in no file, for ever; a rename that fails (as over a directory) makes the next rename destroy a backup that should be kept. Holds: lines are always appended whole, in order, and counted; without rotation, or when all renames fail, a shared file has the lines of all devices. Missing: the claim for rotation, which is false."
  },
  {
   "property": "C111",
   "status": "proved",
   "theorems": [
    "FNLog.C111_sessions",
    "FNLog.C111_contents",
    "FNLog.C111_one_thread"
   ],
   "note": "For orderly sessions: StopLogger is called when no log statement is in progress, and returns (that it returns is C72_worker_finishes); on async channels no compare-and-swap is a lap late; on sync channels one statement at a time. Sequential consistency, sound statements, devices with different files. Without order between the statements and StopLogger it is false (C15, C95, C101)."
  },
  {
   "property": "C112",
   "status": "partial",
   "theorems": [
    "FNLog.C112_writes_listed",
    "FNLog.C112_reads_listed",
    "FNLog.C112_apart_partial",
    "FNLog.C112_after_calls",
    "FNLog.C112_memory_partial",
    "FNLog.C112_state_counterexample",
    "FNLog.C112_chan_counterexample",
    "FNLog.C112_late_counterexample",
    "FNLog.C112_memory_counterexample",
    "FNLog.C112_destructor_counterexample"
   ],
   "note": "Violated: a statement races with StopLogger for logger_state_ and channel_state_, two late statements on a sync channel race with each other after StopLogger has returned, a statement in progress when the logger is destroyed uses released memory, and so does the thread of a channel if another thread starts the logger inside the destructor (all exhibited). Holds: statements that are made only when no call is in progress race for nothing but hot_update_ (C107). With one thread that controls the logger, no thread of a channel is left when memory is released, and it is used only by statements that were in progress at the release."
  },
  {
   "property": "C113",
   "status": "partial",
   "theorems": [
    "FNLog.C113_each_channel",
    "FNLog.C113_stack",
    "FNLog.C113_returns_partial",
    "FNLog.C113_deadlock_stays_counterexample",
    "FNLog.C113_deadlock_counterexample",
    "FNLog.C113_example"
   ],
   "note": "Violated: when two threads forward in opposite directions between two channels, both queues can fill up behind their outer statements and both threads wait for ever; for every BUFFER_LEN, under fair scheduling and with finitely many statements. Holds: when the channels have an order such that inner statements are always on channels in front of those around them, all return and everything is written exactly once. Nesting on the same channel is the subject of C89. Missing: without the order it is false."
  },
  {
   "property": "C114",
   "status": "partial",
   "theorems": [
    "FNLog.C114_sessions",
    "FNLog.C114_result",
    "FNLog.C114_threads",
    "FNLog.C114_running_partial",
    "FNLog.C114_returns_partial",
    "FNLog.C114_hang_counterexample"
   ],
   "note": "Violated: a statement on a sync channel that is between the test and the assignment of channel_state_ (fn_channel.h 187-189) while the logger is stopped and started again with a configuration in which the channel is async sets RUNNING after StopLogger has told the thread of the channel to end; then StopLogger never returns, whatever happens. Holds whatever the statements do: sessions, results, one thread per channel, no threads when stopped. Holds if every configuration has the same kinds of channels: async channels of a running logger run, and StopLogger returns exactly under the condition of C104. Missing: without that condition it is false."
  },
  {
   "property": "C115",
   "status": "partial",
   "theorems": [
    "FNLog.C115_turns_partial",
    "FNLog.C115_load_counterexample",
    "FNLog.C115_hang_counterexample",
    "FNLog.C115_attach",
    "FNLog.C115_torn_counterexample",
    "FNLog.C115_twice_counterexample"
   ],
   "note": "Violated: LoadSharedMemory attaches to a segment that is in use. When a second process only loads its configuration, the threads of the channels in the first one end while its logger stays RUNNING and refuses every statement for ever; or, if StopLogger of the first one is waiting, it never returns; a text being written is output with the mark of a crash; a line being output is output twice. Holds if the processes take turns (each acts only while the other has stopped its logger and is outside of it): in each, a running logger has all its channels RUNNING and their threads, a stopped one has none. The queue in use is treated as one step (Ring.attach, tied to the memory image by C115_attach); destruction is excluded."
  },
  {
   "property": "C116",
   "status": "partial",
   "theorems": [
    "FNLog.C116_float",
    "FNLog.C116_percent_partial",
    "FNLog.C116_percent_any_zone_partial",
    "FNLog.C116_percent_counterexample",
    "FNLog.C116_time_partial",
    "FNLog.C116_time_printed_partial",
    "FNLog.C116_time_changes_partial",
    "FNLog.C116_parts",
    "FNLog.C116_time_counterexample"
   ],
   "note": "Violated: LogPercent keeps a float and cuts off, so LogPercent(0.29) prints 28.9999%, and negative numbers print 00.00%; LogTimestamp(ms) of a point before 1970 that is not a whole second prints the last millisecond of the second after it. Proved: the percentage printed is the one, cut to four decimals, of a number within one part in 2^24; points since 1970 and whole seconds print right; LogTimestamp(s, p) with p outside of 0..999 prints 999. Dates as in C36, room of 70 bytes."
  },
  {
   "property": "C117",
   "status": "proved",
   "theorems": [
    "FNLog.C117_defined",
    "FNLog.C117_statement",
    "FNLog.C117_all_pushed",
    "FNLog.C117_refused"
   ],
   "note": "One thread; the constructor throws nothing."
  },
  {
   "property": "C118",
   "status": "partial",
   "theorems": [
    "FNLog.C118_same_verdict",
    "FNLog.C118_line_partial",
    "FNLog.C118_line_of_error",
    "FNLog.C118_same_lines",
    "FNLog.C118_unknown_key_late",
    "FNLog.C118_counterexample",
    "FNLog.C118_excerpt",
    "FNLog.C118_excerpt_has_line",
    "FNLog.C118_names",
    "FNLog.C118_name_counterexample",
    "FNLog.C118_numbers",
    "FNLog.C118_number_pos",
    "FNLog.C118_enumerators",
    "FNLog.C118_messages",
    "FNLog.C118_lines_unix",
    "FNLog.C118_lines_windows"
   ],
   "note": "Violated: a key that does not belong in its section is reported one line too late, with an excerpt that begins behind the line (C118_unknown_key_late: always); a variable without '=' is an 'unknown error.', as is the read error of LoadSharedMemory. Proved for all other errors: the line number is that of the line to blame, in the text with the replacements made so far, and a line of up to 380 characters is shown whole. A text without channels is reported at its end. 'To blame' is: the line can not be read, or its setting is refused in a device, channel or the logger."
  },
  {
   "property": "C119",
   "status": "partial",
   "theorems": [
    "FNLog.C119_at_most_once",
    "FNLog.C119_each_in_order",
    "FNLog.C119_exclusive",
    "FNLog.C119_bounded",
    "FNLog.C119_join",
    "FNLog.C119_drained_partial",
    "FNLog.C119_ends_partial",
    "FNLog.C119_all_output_partial",
    "FNLog.C119_order_counterexample",
    "FNLog.C119_stop_undone",
    "FNLog.C119_stop_counterexample",
    "FNLog.C119_crash_counterexample"
   ],
   "note": "Violated: together, the writers output lines out of order; a writer that is just beginning sets RUNNING over the stop of another process, whose StopLogger then never returns; after a crash that left a cleared mark one writer releases the slot another one is reading, and a line is output twice. Proved for a segment without such a crash: at most once, unaltered, each writer in order, slots exclusive, and, when no writer is about to set RUNNING at the stop, all writers end (if each is scheduled again and again) and everything is output exactly once when the first of them has ended. Loads on a queue that is not empty are C115."
  },
  {
   "property": "C12",
   "status": "partial",
   "theorems": [
    "FNLog.C12_counterexample",
    "FNLog.C12_stalled_thread_partial"
   ],
   "note": "False of the code for every ring size >= 2: a thread stalled across a lap leaves the channel stuck forever. Proved when no thread stalls that long."
  },
  {
   "property": "C120",
   "status": "partial",
   "theorems": [
    "FNLog.C120_received_partial",
    "FNLog.C120_none_dropped_partial",
    "FNLog.C120_one_socket_partial",
    "FNLog.C120_closed_partial",
    "FNLog.C120_bound",
    "FNLog.C120_opens",
    "FNLog.C120_waits",
    "FNLog.C120_tries_partial",
    "FNLog.C120_round_partial",
    "FNLog.C120_all_partial",
    "FNLog.C120_one_thread",
    "FNLog.C120_overwritten",
    "FNLog.C120_closed_by_other",
    "FNLog.C120_leaked",
    "FNLog.C120_tries_twice",
    "FNLog.C120_old_address",
    "FNLog.C120_never_bound"
   ],
   "note": "Violated when log statements on a sync channel overlap: one overwrites the buffer of another (a datagram is lost, another output twice), one closes the socket another has just bound, and two open a socket each of which one is never closed. Violated with one thread: a changed address is not bound while the device stays enabled, and the input of a device that also sends by UDP never binds a socket the output has opened. Proved when no two threads are inside (async channels): exactly once and in order, none dropped while enabled, one socket, closed when disabled, tries three seconds apart (steady clock), and rounds output all that waits. What waits when a device is disabled is dropped."
  },
  {
   "property": "C121",
   "status": "proved",
   "theorems": [
    "FNLog.C121_forwarded",
    "FNLog.C121_undisturbed",
    "FNLog.C121_file",
    "FNLog.C121_all"
   ],
   "note": "One thread, sync channels. The hook is TransmitChannel with category and identify of the record, as in tests/test_trans_log.cpp. C121_forwarded for the queues and the hand-over to the devices, C121_file for a target file without rotation; what other devices do with the records is C46-C52 and C63."
  },
  {
   "property": "C122",
   "status": "partial",
   "theorems": [
    "FNLog.C122_defined",
    "FNLog.C122_found",
    "FNLog.C122_process_partial",
    "FNLog.C122_contents_partial",
    "FNLog.C122_after_crash_partial",
    "FNLog.C122_lost_counterexample",
    "FNLog.C122_twice_counterexample",
    "FNLog.C122_ghost_counterexample"
   ],
   "note": "Violated: lines whose slots are released and that are still in the buffer of a stream at the crash are in no file (C122_lost_counterexample; at most FN_LOG_FORCE_FLUSH_QUE + 1 records per file, Process.lag); the record at the head of the queue may be written twice; a slot that was acquired and not yet emptied brings back the line that used it one round of the ring before, as a fatal one. Proved for async channels, any number of crashes, timely compare-and-swaps: everything else. C122_contents_partial and C122_after_crash_partial are about files without rotation. The configuration is the same in all processes; the fields a slot has before InitLogData has stored them are arbitrary."
  },
  {
   "property": "C123",
   "status": "partial",
   "theorems": [
    "FNLog.C123_follows_partial",
    "FNLog.C123_as_loaded_partial",
    "FNLog.C123_off",
    "FNLog.C123_stamp",
    "FNLog.C123_switch_counterexample",
    "FNLog.C123_stamp_counterexample",
    "FNLog.C123_removed_counterexample",
    "FNLog.C123_hook_counterexample"
   ],
   "note": "Violated: a version that switches hot update off reaches only the channel that looks first; a version with the same time stamp (whole seconds) as one seen before is never read; a device that is no longer in the file goes on with its old settings; a virtual device that is added is never asked by the hook. Proved if no version switches hot update off and time stamps differ: the channel has the filter and every device of the file its settings; if also no device is removed or changes its type or file, filtering is as if the logger had been started with the file. The checks are treated as single steps; see C84 and C104 for what happens inside them."
  },
  {
   "property": "C124",
   "status": "partial",
   "theorems": [
    "FNLog.C124_reload_partial",
    "FNLog.C124_text_kept",
    "FNLog.C124_before_marker",
    "FNLog.C124_last_image",
    "FNLog.C124_twice_counterexample",
    "FNLog.C124_stale_counterexample",
    "FNLog.C124_birth_counterexample",
    "FNLog.C124_born"
   ],
   "note": "Violated: killed between the completion of a text and the store of write_idx_, a log is completed again by the next process and becomes two lines; killed inside content_[content_len_++] = newline, a stale byte gets into the text; killed between shmget and the store of shm_id_, the segment is refused by every later call for ever. Proved: the next call succeeds, the indices and all other slots and rings are those of an undisturbed call, each unfinished log begins with what had been written and is completed; killed before the length with the marker is stored there is no trace. Stores in program order, except where the language leaves the order open."
  },
  {
   "property": "C125",
   "status": "partial",
   "theorems": [
    "FNLog.C125_next_statements_partial",
    "FNLog.C125_full_blocks",
    "FNLog.C125_full_counterexample",
    "FNLog.C125_repeats_counterexample",
    "FNLog.C125_dropped"
   ],
   "note": "Violated: if one thread was held up in the output of a line while others went on, the slots behind it are not released; when the queue is full at the crash every statement of the next process on that channel waits for ever (C125_full_blocks, for every schedule without StopLogger), and otherwise the next statement outputs again all lines output since. Without a further statement the lines are dropped by StopLogger. Proved if the queue had room: statements made one after the other all return, the first outputs what the queue held, in order. The two cases are complementary (H < R + L always). Overlapping statements after a crash: C18_sync_partial, C18_sync_counterexample."
  },
  {
   "property": "C126",
   "status": "partial",
   "theorems": [
    "FNLog.C126_lines",
    "FNLog.C126_address_partial",
    "FNLog.C126_served",
    "FNLog.C126_call",
    "FNLog.C126_mixed_counterexample",
    "FNLog.C126_late_counterexample"
   ],
   "note": "Violated when the address is changed or the logger stopped while a line is being output: a change of the address between the two loads sends the line to the old address and the new port; a statement in progress opens the socket after StopLogger, and it stays open. Proved for every interleaving: every line has one end, counted right, in order per thread (C126_lines); as long as the address stays, every datagram goes to it, the device owns exactly the socket it knows of, whenever StopLogger comes, and tries are three seconds apart (C126_address_partial); no line is dropped if sockets are granted and the logger is not stopped (C126_served); a call alone is udpDevice of Model/Device (C126_call)."
  },
  {
   "property": "C127",
   "status": "partial",
   "theorems": [
    "FNLog.C127_serial_partial",
    "FNLog.C127_locked_partial",
    "FNLog.C127_steady_partial",
    "FNLog.C127_call",
    "FNLog.C127_write_counterexample",
    "FNLog.C127_null_counterexample",
    "FNLog.C127_twice_counterexample",
    "FNLog.C127_flush_counterexample"
   ],
   "note": "Violated on sync channels: StopLogger may close the file between the test of file_ and fwrite (closed or null stream), StopLogger and a rotation may both close it, and a flush, which is not under the lock of the channel, may use a stream that a rotation has closed. Proved: one after the other (async channels, whose thread StopLogger joins before it closes the files; statements that do not overlap), with every rotation, failure of fopen and fstat, and short write (C127_serial_partial); the same for any number of threads that output, without flush and StopLogger (C127_locked_partial); any number of threads while the file is not closed (C127_steady_partial); one output alone ends with stream and text as specified (C127_call)."
  },
  {
   "property": "C128",
   "status": "partial",
   "theorems": [
    "FNLog.C128_array_partial",
    "FNLog.C128_defined",
    "FNLog.C128_overflow_counterexample",
    "FNLog.C128_negative"
   ],
   "note": "Violated for lengths from 2147483616 on: (i + 1) * 32 overflows in the last row. For all others the dump is that of Model/Stream (text C25, safety C23; hexadecimal zero bytes: C33); it is defined iff the bytes up to the length can be read, so it reads them all even if the record is full, and no others. Lengths -31 to 0 print one empty row, smaller ones none."
  },
  {
   "property": "C129",
   "status": "partial",
   "theorems": [
    "FNLog.C129_name",
    "FNLog.C129_port",
    "FNLog.C129_device",
    "FNLog.C129_order_counterexample",
    "FNLog.C129_port_counterexample",
    "FNLog.C129_halves"
   ],
   "note": "Violated: after a line disable: true the name is not resolved and the port is lost, too, so the order of the lines matters (C129_order_counterexample); ports are taken modulo 65536 (C129_port, C129_port_counterexample). Proved: otherwise address and port are as given, and a name without an address is refused, though with the port blamed if the device has an input (C129_device). The resolver is a parameter; that the code reads its 4 bytes through a u_long pointer (fn_parse.h 655) is not modelled. Numbers with dots: C63."
  },
  {
   "property": "C13",
   "status": "partial",
   "theorems": [
    "FNLog.C13_counterexample",
    "FNLog.C13_single_thread_partial"
   ],
   "note": "False with two producers; proved for one."
  },
  {
   "property": "C14",
   "status": "partial",
   "theorems": [
    "FNLog.C14_counterexample",
    "FNLog.C14_published_survive_partial"
   ],
   "note": "False for a stop racing with log statements; proved for logs published before the stop."
  },
  {
   "property": "C15",
   "status": "partial",
   "theorems": [
    "FNLog.C15_counterexample",
    "FNLog.C15_clean_restart_partial"
   ],
   "note": "False after a non-quiescent stop; proved for a quiescent one."
  },
  {
   "property": "C16",
   "status": "proved",
   "theorems": [
    "FNLog.C16_counters",
    "FNLog.C16_push_le_hold",
    "FNLog.C16_idle_equal",
    "FNLog.C16_drained",
    "FNLog.C16_bytes_async",
    "FNLog.C16_bytes_sync_counterexample"
   ],
   "note": "The byte counter claim is for async channels; its race on sync channels is exhibited."
  },
  {
   "property": "C17",
   "status": "proved",
   "theorems": [
    "FNLog.C17_full_queue_released",
    "FNLog.C17_alone_completes"
   ],
   "note": ""
  },
  {
   "property": "C18",
   "status": "partial",
   "theorems": [
    "FNLog.C18_image_recovered_partial",
    "FNLog.C18_async_order_partial",
    "FNLog.C18_async_complete_partial",
    "FNLog.C18_unpublished_text_partial",
    "FNLog.C18_stale_text_counterexample",
    "FNLog.C18_sync_counterexample",
    "FNLog.C18_sync_partial"
   ],
   "note": "Async: recovered lines are output first, in order, completely, after any history with crashes. False for a slot acquired but not yet written (old text) and for concurrent sync channels; both exhibited."
  },
  {
   "property": "C19",
   "status": "partial",
   "theorems": [
    "FNLog.C19_one_repeat_partial",
    "FNLog.C19_clean_cut",
    "FNLog.C19_counterexample"
   ],
   "note": "At most one repeated log for crashes outside of the index reset at the end of StopLogger; inside of it all logs may be repeated (exhibited)."
  },
  {
   "property": "C20",
   "status": "proved",
   "theorems": [
    "FNLog.C20_recovered_slot",
    "FNLog.C20_negative_length"
   ],
   "note": ""
  },
  {
   "property": "C21",
   "status": "partial",
   "theorems": [
    "FNLog.C21_terminates_partial",
    "FNLog.C21_counterexample",
    "FNLog.C21_only_recorded_channels"
   ],
   "note": "An out-of-range hold index makes re-attachment loop forever."
  },
  {
   "property": "C22",
   "status": "proved",
   "theorems": [
    "FNLog.C22_mismatch_refused",
    "FNLog.C22_attached_only_if_valid"
   ],
   "note": ""
  },
  {
   "property": "C23",
   "status": "partial",
   "theorems": [
    "FNLog.C23_inside_record_partial",
    "FNLog.C23_counterexample"
   ],
   "note": "Every operation sequence whose values avoid the undefined conversions of C32-C34 (LLONG_MIN, hexadecimal dump of a zero byte); those are exhibited as undefined behaviour."
  },
  {
   "property": "C24",
   "status": "proved",
   "theorems": [
    "FNLog.C24_published_line"
   ],
   "note": ""
  },
  {
   "property": "C25",
   "status": "partial",
   "theorems": [
    "FNLog.C25_line_is_the_text_partial",
    "FNLog.C25_any_zone_partial",
    "FNLog.C25_printed_partial",
    "FNLog.C25_changes_partial",
    "FNLog.C25_alignment_counterexample"
   ],
   "note": "Holds for every sequence in which each alignment (LogBlankAlign / binary dump) also has its requested width of room; without that an alignment that would have fitted is skipped (exhibited). Timestamps among the values: in zones with a fixed clock, in zones with clock changes on days without one (C25_changes_partial); none in the values: every zone."
  },
  {
   "property": "C26",
   "status": "proved",
   "theorems": [
    "FNLog.C26_strings_truncated",
    "FNLog.C26_pieces"
   ],
   "note": ""
  },
  {
   "property": "C27",
   "status": "proved",
   "theorems": [
    "FNLog.C27_prefix",
    "FNLog.C27_printed",
    "FNLog.C27_changes",
    "FNLog.C27_no_prefix",
    "FNLog.C27_long_name_counterexample"
   ],
   "note": "C27_prefix: timestamps of days of 86400 seconds after the first epoch day (see C36). C27_printed: any zone, for timestamps of days without a clock change. C27_changes: any zone with clock changes; the date is by the clock of the log, or of an earlier line of the thread in whose 24 hours it is."
  },
  {
   "property": "C28",
   "status": "proved",
   "theorems": [
    "FNLog.C28_refused"
   ],
   "note": ""
  },
  {
   "property": "C29",
   "status": "proved",
   "theorems": [
    "FNLog.C29_container"
   ],
   "note": ""
  },
  {
   "property": "C30",
   "status": "proved",
   "theorems": [
    "FNLog.C30_format"
   ],
   "note": "vsnprintf is a parameter: it returns any text or an error."
  },
  {
   "property": "C31",
   "status": "proved",
   "theorems": [
    "FNLog.C31_unsigned_decimal",
    "FNLog.C31_width_limit"
   ],
   "note": "For widths up to 30; a width above 30 writes in front of the scratch buffer (C31_width_limit)."
  },
  {
   "property": "C32",
   "status": "partial",
   "theorems": [
    "FNLog.C32_signed_decimal_partial",
    "FNLog.C32_counterexample"
   ],
   "note": "Every signed value except LLONG_MIN, whose negation is undefined."
  },
  {
   "property": "C33",
   "status": "partial",
   "theorems": [
    "FNLog.C33_hexadecimal_partial",
    "FNLog.C33_counterexample"
   ],
   "note": "Every non-zero value; zero calls __builtin_clz(0), undefined."
  },
  {
   "property": "C34",
   "status": "partial",
   "theorems": [
    "FNLog.C34_binary_partial",
    "FNLog.C34_padding_not_written",
    "FNLog.C34_counterexample"
   ],
   "note": "Every non-zero value without padding; padding bytes are never written."
  },
  {
   "property": "C35",
   "status": "proved",
   "theorems": [
    "FNLog.C35_double",
    "FNLog.C35_extremes"
   ],
   "note": "The C library functions gcvt / sprintf are a parameter with bounded output."
  },
  {
   "property": "C36",
   "status": "partial",
   "theorems": [
    "FNLog.C36_date_partial",
    "FNLog.C36_some_clock",
    "FNLog.C36_changes_partial",
    "FNLog.C36_old_clock",
    "FNLog.C36_dst_counterexample",
    "FNLog.C36_dst_cache_counterexample",
    "FNLog.C36_epoch_counterexample"
   ],
   "note": "Every timestamp in zones whose days have 86400 seconds. In zones with clock changes the text is the time of the timestamp by its own clock or by the clock of an earlier one of the thread in whose 24 hours from midnight it is (C36_some_clock), so it is right unless the thread logged on the other side of a change on that day (C36_changes_partial), and then it is wrong by the change (C36_old_clock; the hour in autumn and the date in spring are exhibited). The first day of the epoch is printed wrongly (exhibited)."
  },
  {
   "property": "C37",
   "status": "partial",
   "theorems": [
    "FNLog.terminates_or_diverges",
    "FNLog.C37_terminates_partial",
    "FNLog.C37_macros_partial",
    "FNLog.C37_bom_never_accepted",
    "FNLog.C37_bom_counterexample",
    "FNLog.C37_nul_counterexample",
    "FNLog.C37_self_define_counterexample"
   ],
   "note": "False as stated: three divergences are exhibited. Proved: without byte order mark, NUL and with no define or var the parser returns; with them, only a macro or variable whose padded value equals its key can hang it."
  },
  {
   "property": "C38",
   "status": "proved",
   "theorems": [
    "FNLog.C38_well_formed",
    "FNLog.C38_out_type"
   ],
   "note": ""
  },
  {
   "property": "C39",
   "status": "proved",
   "theorems": [
    "FNLog.C39_meaning",
    "FNLog.C39_round_trip"
   ],
   "note": "For every configuration within the documented ranges (Spec.Expressible) the rendered document is accepted and gives exactly that configuration, for every indentation with chan < dev < set; C39_meaning covers documents whose settings appear in any order, repeatedly, or not at all."
  },
  {
   "property": "C40",
   "status": "partial",
   "theorems": [
    "FNLog.C40_irrelevant_partial",
    "FNLog.C40_reading",
    "FNLog.C40_trailing_blanks",
    "FNLog.C40_insert_line",
    "FNLog.C40_append_comment",
    "FNLog.C40_crlf",
    "FNLog.C40_no_channel_counterexample",
    "FNLog.C40_self_define_counterexample"
   ],
   "note": "Proved for configurations with a channel, up to the hang of C37; both exceptions are exhibited as counterexamples."
  },
  {
   "property": "C41",
   "status": "proved",
   "theorems": [
    "FNLog.C41_documented_keys",
    "FNLog.C41_reads_inside",
    "FNLog.C41_misspelt"
   ],
   "note": "Documented keys map to their meaning and the recogniser stays inside the key; misspelt keys are accepted too (exhibited by C41_misspelt)."
  },
  {
   "property": "C42",
   "status": "proved",
   "theorems": [
    "FNLog.C42_in_place",
    "FNLog.C42_define",
    "FNLog.C42_var",
    "FNLog.C42_var_refused"
   ],
   "note": ""
  },
  {
   "property": "C43",
   "status": "proved",
   "theorems": [
    "FNLog.C43_bit_list",
    "FNLog.C43_large_counterexample",
    "FNLog.C43_blanks_only"
   ],
   "note": "Numbers of 64 and more are an undefined shift and blank-separated lists keep only the first number (both exhibited)."
  },
  {
   "property": "C44",
   "status": "partial",
   "theorems": [
    "FNLog.C44_only_the_key_partial",
    "FNLog.C44_counterexample"
   ],
   "note": "shm_key_ of the configuration object is not initialised; everything else is determined by the text."
  },
  {
   "property": "C45",
   "status": "partial",
   "theorems": [
    "FNLog.C45_init_reports",
    "FNLog.C45_init_unchanged",
    "FNLog.C45_init_file_missing",
    "FNLog.C45_hot_update_unchanged",
    "FNLog.C45_no_channel_counterexample"
   ],
   "note": "Proved for every text with a syntax error.  A text the parser accepts but that has no channel is refused after the old configuration has been overwritten (counterexample)."
  },
  {
   "property": "C46",
   "status": "proved",
   "theorems": [
    "FNLog.C46_rotation",
    "FNLog.C46_nothing_lost",
    "FNLog.C46_names",
    "FNLog.C46_negative_counterexample"
   ],
   "note": "For every number of backups an int can hold; the names the device generates always satisfy the condition on the name.  A configured number of 2^31 becomes negative and rotation deletes the file (exhibited)."
  },
  {
   "property": "C47",
   "status": "proved",
   "theorems": [
    "FNLog.C47_created"
   ],
   "note": "Stated for whole runs of the device, whatever names it generates."
  },
  {
   "property": "C48",
   "status": "partial",
   "theorems": [
    "FNLog.C48_limit_partial",
    "FNLog.C48_stuffed_partial",
    "FNLog.C48_stuff_up_counterexample",
    "FNLog.C48_two_days_counterexample",
    "FNLog.C48_denied_counterexample"
   ],
   "note": "Holds for devices without stuff_up; with stuff_up a reopened file takes one line beyond the limit (at most one in a session without daily or hourly rolling, if every line is taken and written completely; with daily rolling and lines of two days that alternate any number), and when renames fail the file grows without bound (on the file system of C110)."
  },
  {
   "property": "C49",
   "status": "proved",
   "theorems": [
    "FNLog.C49_suffix",
    "FNLog.C49_no_loss",
    "FNLog.C49_each_name",
    "FNLog.C49_fills",
    "FNLog.C49_names_no_loss"
   ],
   "note": "C49_suffix and C49_no_loss for a device whose file name does not change over the run. C49_each_name for any device: for each name that the device gives to a file, what is written to files of that name, whatever happens to other files in between; C49_fills says that every run is of this form for all names at once, each line taken going to exactly one name; C49_names_no_loss that nothing is lost if at most N files were opened."
  },
  {
   "property": "C50",
   "status": "partial",
   "theorems": [
    "FNLog.C50_period_partial",
    "FNLog.C50_creators_clock",
    "FNLog.C50_changes_partial",
    "FNLog.C50_zone_partial",
    "FNLog.C50_short_day_counterexample",
    "FNLog.C50_half_hour_counterexample",
    "FNLog.C50_both_counterexample"
   ],
   "note": "Holds in zones with a fixed offset, and in zones that change their clocks by whole hours unless a change lies between the line and an earlier one less than a day (an hour) before or after it; in any case the day is right by the clock at the creation of the file. Exhibited: a file from before the change takes a line of the next day; in a zone with a change by half an hour create_day is 00:30, because the first mktime leaves 30 minutes in day; rollhourly together with rolldaily."
  },
  {
   "property": "C51",
   "status": "proved",
   "theorems": [
    "FNLog.C51_statistics",
    "FNLog.C51_priorities",
    "FNLog.C51_size",
    "FNLog.C51_failed_write_counterexample"
   ],
   "note": "The counters count lines handed to an open file; a write that fails is counted in full (exhibited)."
  },
  {
   "property": "C52",
   "status": "proved",
   "theorems": [
    "FNLog.C52_skips",
    "FNLog.C52_retry"
   ],
   "note": ""
  },
  {
   "property": "C53",
   "status": "proved",
   "theorems": [
    "FNLog.C53_name",
    "FNLog.C53_path",
    "FNLog.C53_endless_counterexample"
   ],
   "note": "With a process name containing $PNAME the function never returns (exhibited)."
  },
  {
   "property": "C54",
   "status": "proved",
   "theorems": [
    "FNLog.C54_short_path",
    "FNLog.C54_unique"
   ],
   "note": ""
  },
  {
   "property": "C55",
   "status": "partial",
   "theorems": [
    "FNLog.C55_hot_update",
    "FNLog.C55_hot_update_happens",
    "FNLog.C55_channel_missing",
    "FNLog.C55_empty_file_counterexample"
   ],
   "note": "Proved for every file that has the channel (and for a missing channel: nothing but the switch changes).  An empty file is accepted for channel 0 and clears its filter."
  },
  {
   "property": "C56",
   "status": "proved",
   "theorems": [
    "FNLog.C56_rate_limit",
    "FNLog.C56_unchanged",
    "FNLog.C56_idempotent",
    "FNLog.C56_after_load"
   ],
   "note": "Unchanged means: same modification time (seconds), as in the code; a change within the same second is not seen."
  },
  {
   "property": "C57",
   "status": "partial",
   "theorems": [
    "FNLog.C57_consistent",
    "FNLog.C57_start_ok",
    "FNLog.C57_start_happens",
    "FNLog.C57_in_use",
    "FNLog.C57_stop_stopped",
    "FNLog.C57_stop_ok",
    "FNLog.C57_started_admits",
    "FNLog.C57_stopped_refuses",
    "FNLog.C57_stop_before_load_counterexample",
    "FNLog.C57_exception_counterexample"
   ],
   "note": "Proved for every sequence of calls that return.  StopLogger before loading is undefined; a thread that cannot be created leaves the logger unusable."
  },
  {
   "property": "C58",
   "status": "partial",
   "theorems": [
    "FNLog.C58_start_hangs_counterexample",
    "FNLog.C58_failed_start_partial"
   ],
   "note": "False: StartLogger can wait for ever for a thread that nobody told to end."
  },
  {
   "property": "C59",
   "status": "partial",
   "theorems": [
    "FNLog.C59_set_channel",
    "FNLog.C59_set_device",
    "FNLog.C59_set_invalid",
    "FNLog.C59_batch_channel",
    "FNLog.C59_batch_device",
    "FNLog.C59_get_device",
    "FNLog.C59_get_logs",
    "FNLog.C59_get_after_set",
    "FNLog.C59_batch_counterexample",
    "FNLog.C59_unloaded_counterexample"
   ],
   "note": "Proved for a loaded logger and, for the batch setters, valid fields.  The batch setters do not check the field; all are undefined before loading."
  },
  {
   "property": "C60",
   "status": "partial",
   "theorems": [
    "FNLog.C60_hook_partial",
    "FNLog.C60_last",
    "FNLog.C60_once",
    "FNLog.C60_no_virtual_counterexample",
    "FNLog.C60_two_counterexample",
    "FNLog.C60_disabled"
   ],
   "note": "Holds for channels with exactly one virtual device (last one if several); the hook also fires for device 0 of a channel without virtual device, never asks the first of two, and does not look at the able flag (exhibited)."
  },
  {
   "property": "C61",
   "status": "proved",
   "theorems": [
    "FNLog.C61_same_channel",
    "FNLog.C61_refused",
    "FNLog.C61_copy"
   ],
   "note": ""
  },
  {
   "property": "C62",
   "status": "partial",
   "theorems": [
    "FNLog.C62_default_text_partial",
    "FNLog.C62_manual_fast_use_counterexample",
    "FNLog.C62_manual_default_log_counterexample",
    "FNLog.C62_bin_log_counterexample",
    "FNLog.C62_dist_default_log_counterexample",
    "FNLog.C62_manual_var_counterexample",
    "FNLog.C62_manual_values_counterexample"
   ],
   "note": "The text built into FastStartDefaultLogger is accepted with the promised channels and devices.  Both yaml examples of the manual and both yaml files shipped are refused with the default limits: the property is false."
  },
  {
   "property": "C63",
   "status": "proved",
   "theorems": [
    "FNLog.C63_udp_address",
    "FNLog.C63_device",
    "FNLog.C63_manual_notation",
    "FNLog.C63_octal",
    "FNLog.C63_short"
   ],
   "note": ""
  },
  {
   "property": "C64",
   "status": "partial",
   "theorems": [
    "FNLog.C64_end_to_end_partial",
    "FNLog.C64_appended_partial",
    "FNLog.C64_rotated_partial"
   ],
   "note": "C64_rotated_partial: with rotation and names that depend on the time, the lines in the files of each name. Needs that different file devices have different files, that the hook does not report to the device considered, and that category and identify are not changed after admission to values refused there; failing opens and short writes are covered through the device state machine. Any time zone; timestamps of days without a clock change (Props/Changes.lean: change_ready, change_fits for a zone with a change)."
  },
  {
   "property": "C65",
   "status": "partial",
   "theorems": [
    "FNLog.C65_sign_partial",
    "FNLog.C65_counterexample"
   ],
   "note": "The sign is lost for small negative values and -inf."
  },
  {
   "property": "C66",
   "status": "proved",
   "theorems": [
    "FNLog.C66_load",
    "FNLog.C66_load_file",
    "FNLog.C66_configured_runs"
   ],
   "note": "Shared memory newly created or already attached in the process; attaching to an existing segment is C17 and following."
  },
  {
   "property": "C67",
   "status": "partial",
   "theorems": [
    "FNLog.C67_screen",
    "FNLog.C67_complete_partial",
    "FNLog.C67_nul_counterexample"
   ],
   "note": "Lines are shown up to a NUL in their text; the text of a line with a NUL is cut and the next line glued to it (exhibited)."
  },
  {
   "property": "C68",
   "status": "partial",
   "theorems": [
    "FNLog.C68_fate_partial",
    "FNLog.C68_datagrams",
    "FNLog.C68_open",
    "FNLog.C68_failed_counterexample"
   ],
   "note": "A line refused by sendto is counted as lost and as written (exhibited); everything else holds."
  },
  {
   "property": "C69",
   "status": "partial",
   "theorems": [
    "FNLog.C69_defined",
    "FNLog.C69_file_partial",
    "FNLog.C69_stale_counterexample",
    "FNLog.C69_full_counterexample"
   ],
   "note": "File devices get datagrams shorter than the buffer byte by byte; on the screen a datagram is followed by the rest of an earlier longer one, and a datagram that fills the buffer is cut and ended with a line end and a NUL (exhibited)."
  },
  {
   "property": "C70",
   "status": "partial",
   "theorems": [
    "FNLog.C70_last_category_partial",
    "FNLog.C70_refused_counterexample"
   ],
   "note": "Admission uses the category of the constructor, output the category set last (exhibited)."
  },
  {
   "property": "C71",
   "status": "partial",
   "theorems": [
    "FNLog.C71_default_names_partial",
    "FNLog.C71_channel_apart",
    "FNLog.C71_collision_counterexample"
   ],
   "note": "Holds for channel numbers below 10; device 11 of channel 1 and device 1 of channel 11 share a file (exhibited)."
  },
  {
   "property": "C72",
   "status": "partial",
   "theorems": [
    "FNLog.C72_threads_partial",
    "FNLog.C72_async_complete_partial",
    "FNLog.C72_worker_finishes",
    "FNLog.C72_rotated_partial"
   ],
   "note": "C72_rotated_partial: the lines of all threads in the rotated files of each name. For schedules in which no compare-and-swap succeeds although the index went round the ring since it was loaded (C12 shows that this is needed; every schedule in which no thread is delayed for a full lap is of this kind); different file devices have different files; no hook. Covers devices of every type: each is, with its statistics, handle, socket, files and datagrams, as if it had processed the records seen alone."
  },
  {
   "property": "C73",
   "status": "partial",
   "theorems": [
    "FNLog.C73_sync_complete_partial",
    "FNLog.C73_order_counterexample"
   ],
   "note": "Exactly once at every device holds under the restriction of C72; the devices may see the records in different orders (exhibited: two files with two lines in different orders)."
  },
  {
   "property": "C74",
   "status": "partial",
   "theorems": [
    "FNLog.C74_weak_safe",
    "FNLog.C74_includes_sequential"
   ],
   "note": "For schedules in which no compare-and-swap succeeds although the index went round the ring since it was loaded (C12 shows that this is needed; every schedule in which no thread is delayed for a full lap is of this kind). C74_includes_sequential: the schedules of C06-C17 are among those considered."
  },
  {
   "property": "C75",
   "status": "partial",
   "theorems": [
    "FNLog.C75_no_race"
   ],
   "note": "Same restriction as C74; the statistics reads of a record after it was handed on are not included (see C16)."
  },
  {
   "property": "C76",
   "status": "partial",
   "theorems": [
    "FNLog.C76_counterexample",
    "FNLog.C76_one_thread_partial",
    "FNLog.C76_sync_one_thread_partial"
   ],
   "note": "Violated: two threads may each miss the other's mark, both return, and the record stays unpublished until the next statement (exhibited; allowed by acquire loads, not under sequential consistency, see C10). Holds for one logging thread."
  },
  {
   "property": "C77",
   "status": "partial",
   "theorems": [
    "FNLog.C77_counterexample",
    "FNLog.C77_newest_partial"
   ],
   "note": "Violated: the worker may see the plain variable channel_state_ changed and still an old write_idx_ (exhibited). Holds if the last load of write_idx_ returns the newest value; under sequential consistency see C11."
  },
  {
   "property": "C78",
   "status": "partial",
   "theorems": [
    "FNLog.C78_priority_bytes_partial",
    "FNLog.C78_counterexample"
   ],
   "note": "Violated when a log statement is held up between lines 499 and 500 for a lap of the queue (exhibited on an async channel of 11 slots). Holds otherwise, for any number of threads, sync or async, under the restriction of C06-C10 on compare-and-swaps."
  },
  {
   "property": "C79",
   "status": "partial",
   "theorems": [
    "FNLog.C79_queue_length",
    "FNLog.C79_queue_maximum",
    "FNLog.C79_delay",
    "FNLog.C79_delay_maximum",
    "FNLog.C79_sync_counterexample"
   ],
   "note": "Holds on async channels under the restriction of C06-C10. Violated on sync channels: load, compare and store are separate, so a smaller value can replace a larger one (exhibited)."
  },
  {
   "property": "C80",
   "status": "partial",
   "theorems": [
    "FNLog.C80_creates",
    "FNLog.C80_keeps",
    "FNLog.C80_only",
    "FNLog.C80_failure",
    "FNLog.C80_alone_partial",
    "FNLog.C80_again",
    "FNLog.C80_race_counterexample",
    "FNLog.C80_unreadable_counterexample"
   ],
   "note": "Soundness (what it makes, what it keeps) and the reasons of failure hold for all trees and all additions by others. Violated: it gives up although everything could be made, if another process makes the same directory in between, or if a directory on the way exists but can not be opened (both exhibited). No symbolic links."
  },
  {
   "property": "C81",
   "status": "partial",
   "theorems": [
    "FNLog.C81_open_partial",
    "FNLog.C81_no_directory",
    "FNLog.C81_counterexample"
   ],
   "note": "Violated for a configured file name with a directory in it (exhibited). Holds for file names without slash, with the restrictions of C80."
  },
  {
   "property": "C82",
   "status": "partial",
   "theorems": [
    "FNLog.C82_content",
    "FNLog.C82_name_safe",
    "FNLog.C82_name_partial",
    "FNLog.C82_name_counterexample"
   ],
   "note": "read_content and the safety of the name hold without restriction. The name is wrong for program paths of 499 bytes or more (exhibited) or with a line feed."
  },
  {
   "property": "C83",
   "status": "partial",
   "theorems": [
    "FNLog.C83_default_partial",
    "FNLog.C83_debug_partial",
    "FNLog.C83_lines",
    "FNLog.C83_counterexample"
   ],
   "note": "Holds if the uninitialised shm_key_ is not positive; otherwise starting depends on shared memory (exhibited, see C44)."
  },
  {
   "property": "C84",
   "status": "partial",
   "theorems": [
    "FNLog.C84_mixed",
    "FNLog.C84_ends",
    "FNLog.C84_one_setting_partial",
    "FNLog.C84_kept_partial",
    "FNLog.C84_looser_partial",
    "FNLog.C84_dispatch_mixed",
    "FNLog.C84_counterexample_admitted",
    "FNLog.C84_counterexample_lost",
    "FNLog.C84_counterexample_overflow",
    "FNLog.C84_counterexample_appended"
   ],
   "note": "Violated (four witnesses): ranges are two variables, and an appended device is visible before it is complete. For every update and every order of the assignments the filter is a field-by-field mixture of old and new; that is old or new if one setting changes, and lies between them if priorities and switches change in one direction."
  },
  {
   "property": "C85",
   "status": "proved",
   "theorems": [
    "FNLog.C85_names",
    "FNLog.C85_call",
    "FNLog.C85_values",
    "FNLog.C85_format",
    "FNLog.C85_format_error",
    "FNLog.C85_line",
    "FNLog.C85_line_format"
   ],
   "note": "The hypotheses Ready and Sound are those of C64. With a hook installed, printf-style and streamed text agree if the text fits into the record (else the hook finds one byte less)."
  },
  {
   "property": "C86",
   "status": "partial",
   "theorems": [
    "FNLog.C86_independent_partial",
    "FNLog.C86_channel_partial",
    "FNLog.C86_sync_complete_partial",
    "FNLog.C86_async_complete_partial"
   ],
   "note": "Under the restriction of C72 on late compare-and-swaps; file devices have different files; no hook. logger_state_ is changed channel by channel, which includes the real change as a special case."
  },
  {
   "property": "C87",
   "status": "partial",
   "theorems": [
    "FNLog.C87_hook_partial",
    "FNLog.C87_complete_partial",
    "FNLog.C87_hook_first_partial"
   ],
   "note": "Under the restriction of C72 on late compare-and-swaps. The device of the hook may be of any type (C60: without a virtual device it is device 0). A statement whose channel is stopped after it got a slot may still call the hook although its record is lost."
  },
  {
   "property": "C88",
   "status": "proved",
   "theorems": [
    "FNLog.C88_enable",
    "FNLog.C88_priority",
    "FNLog.C88_category",
    "FNLog.C88_file",
    "FNLog.C88_effect",
    "FNLog.C88_unloaded"
   ],
   "note": "Proved in full for a loaded logger; before loading the functions dereference a null pointer (C88_unloaded). SetAllFilePriority with two numbers sets the category range."
  },
  {
   "property": "C89",
   "status": "partial",
   "theorems": [
    "FNLog.C89_others_return_partial",
    "FNLog.C89_nothing_passes",
    "FNLog.C89_stuck_counterexample"
   ],
   "note": "Holds while a slot is free. Nothing behind the suspended statement is output, and when BUFFER_LEN - 1 records have been acquired from its own on, all statements of the channel wait for ever unless it goes on (C89_stuck_counterexample), which is a deadlock if it waits for one of them. Under the restriction of C12 on late compare-and-swaps."
  },
  {
   "property": "C90",
   "status": "partial",
   "theorems": [
    "FNLog.C90_threads_partial",
    "FNLog.C90_complete_partial"
   ],
   "note": "For schedules in which no compare-and-swap succeeds although the index went round the ring since it was loaded (C12 shows that this is needed; every schedule in which no thread is delayed for a full lap is of this kind)."
  },
  {
   "property": "C91",
   "status": "partial",
   "theorems": [
    "FNLog.C91_flushed_partial"
   ],
   "note": "For schedules in which no compare-and-swap succeeds although the index went round the ring since it was loaded (C12 shows that this is needed), and for async channels, sync channels without rotation and failing writes (otherwise C92 is violated), or sync channels with one statement at a time."
  },
  {
   "property": "C92",
   "status": "partial",
   "theorems": [
    "FNLog.C92_streams_partial",
    "FNLog.C92_closed_stream_counterexample",
    "FNLog.C92_stop_counterexample"
   ],
   "note": "Violated on sync channels with rotation, or at StopLogger: the flush loops do not take the lock (exhibited). Holds on async channels, on sync channels without rotation, with the restriction of C91 on late compare-and-swaps, and on sync channels with one statement at a time."
  },
  {
   "property": "C93",
   "status": "partial",
   "theorems": [
    "FNLog.C93_received_partial",
    "FNLog.C93_idle_counterexample"
   ],
   "note": "Violated: lines received by UDP are not flushed by rounds that dispatch no record, however many there are (exhibited). They are flushed with the next record."
  },
  {
   "property": "C94",
   "status": "proved",
   "theorems": [
    "FNLog.C94_enumerators",
    "FNLog.C94_own_counter"
   ],
   "note": "A finite table, and the increment for all contents and amounts."
  },
  {
   "property": "C95",
   "status": "partial",
   "theorems": [
    "FNLog.C95_stopped_partial",
    "FNLog.C95_late_statement_counterexample"
   ],
   "note": "Violated on sync channels with a log statement in progress: it opens the file again after StopLogger has closed it and sets the channel back to running (exhibited). Holds on async channels and on sync channels without statements in progress, with the restrictions of C91."
  },
  {
   "property": "C96",
   "status": "proved",
   "theorems": [
    "FNLog.C96_process_memory",
    "FNLog.C96_new_segment"
   ],
   "note": "That the operating system fills the slots of a new segment with zeros is a hypothesis."
  },
  {
   "property": "C97",
   "status": "partial",
   "theorems": [
    "FNLog.C97_text_to_files_partial",
    "FNLog.C97_default_names_partial",
    "FNLog.C97_names",
    "FNLog.C97_apart",
    "FNLog.C97_lines",
    "FNLog.C97_sync_partial",
    "FNLog.C97_rotated"
   ],
   "note": "C97_lines for devices with one file, C97_rotated for devices that rotate. Under the restriction of C72 on late compare-and-swaps, for configurations without shared memory key; sync channels (C97_sync_partial) with one statement at a time, without that restriction; otherwise C72, C91 and C95. That the file names are different is a hypothesis, discharged for names left to the logger."
  },
  {
   "property": "C98",
   "status": "partial",
   "theorems": [
    "FNLog.C98_destroyed_partial",
    "FNLog.C98_foreign_segment_counterexample",
    "FNLog.C98_delete_segment_counterexample",
    "FNLog.C98_exception_counterexample"
   ],
   "note": "Violated when texts with and without shared memory key are loaded one after the other (a foreign segment is removed, or delete is called for a segment) and after an exception from StartLogger (the destructor never ends), all exhibited. Holds for all other sequences of calls."
  },
  {
   "property": "C99",
   "status": "partial",
   "theorems": [
    "FNLog.C99_read_partial",
    "FNLog.C99_zero_counterexample",
    "FNLog.C99_long_counterexample"
   ],
   "note": "Violated for values of more than 40 characters, which are read as 0 (exhibited); holds for all numbers below 2^64, in every spelling. A decimal number with leading zeros is read as octal (exhibited)."
  }
 ]
}