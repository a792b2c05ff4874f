# A formal model of fn-log in Lean 4

The source is /repo (zsummer/fn-log, header-only C++ under `src/include`). It was read as text only; nothing of it
was built or run. Everything below is about the model, and the tie to the code is the transcription: each
definition in `lean/Verif/Model` cites the file and the lines it was transcribed from.

## Trusted base

* The Lean 4.33.0 kernel. Every theorem depends at most on `propext`, `Classical.choice` and `Quot.sound`. There are
  no own axioms, no `sorry`, no `native_decide`, no `bv_decide`. Only Lean core is imported, no Mathlib.
  `kernel_rfl` (`Proof/KernelRfl.lean`) is a tactic for closed equations: it hands `Eq.refl` to the kernel without
  first asking the elaborator; the kernel checks it like any other proof.
* The transcription from C++ to Lean. Simplifications are stated at the head of each model file and repeated below.
* Concurrency: every atomic load, store, compare-and-swap and every access to a shared plain field is one step; steps
  of different threads interleave arbitrarily. Except in C74-C77 and C90 every load returns the newest value (sequential
  consistency). These are about loads that may return older values; trusted there is that the
  view-based operational model at the head of `Model/Weak` allows at least what C++ allows for acquire and release.
* The environment is a parameter, with what is assumed of it stated as a hypothesis:
  - the time zone (`Zone`, with `Sane`, `Uniform`, `Covers`: each day begins at a multiple of 86400 s after a fixed
    offset, and `localtime` gives the calendar date; `ByOffset`: any changes of the offset, and `mktime` with the
    `tm_isdst` of a time uses the offset of that time; `Printed`: a timestamp of a day without a clock change, which is
    every one in a `Uniform` zone and, by `Zone.Steady.printed`, every one at least a day away from the changes of a
    zone). The theorems on whole log statements (C60, C61, C64 and later, wherever `Ready` and `Fits` occur) hold in every `Sane`
    zone for statements whose timestamps are `Printed`; `Props/Changes` has a channel in a zone with a change,
  - floating point to text (`Lib.Sane`: bounded length), `vsnprintf` (any text or an error),
  - opening, writing, renaming of files, sockets, shared memory, thread creation, clock: arbitrary answers,
  - glibc's `atoi` / `atoll` / `strtoll` (saturating) and `mktime` are transcribed as functions; `mktime` depends on `tm_isdst` (`Zone` in
    `Model/Fmt`, `changeZone` in `Proof/FmtDate`).
* Fixed choices: the branches for Linux on x86-64 with default macros (`FN_LOG_MAX_LOG_SIZE` etc. as parameters where
  a property depends on them), 32-bit `int`, 64-bit `long long`.

## What is modelled

| Source | Modelled | Where |
|---|---|---|
| fn_data.h | data types, statistics arrays | `Model/Types`, `Model/Counters` |
| fn_channel.h | `EnterProcDevice`, `DispatchLog`, `EnterProcChannel` (queue, UDP input), `InitLogData`, `BlockInput`, `HoldChannel`, `PushChannel`, `TransmitChannel` | `Model/Filter`, `Ring`, `Tally`, `Device`, `Statement`, `Threads`, `Fleet`, `Hook`, `Weak`, `WeakThreads`, `HotRead`, `Flush`, `FlushRound`, `Writers`, `UdpIn`, `Bridge`, `Crash` |
| fn_core.h | `StartChannels` … `InitLogger`, `~Logger`, all setters and getters | `Model/Logger`, `Model/Api`, `Model/Ring` (restart), `Model/Shut`, `Model/Unload` |
| fn_load.h | `LoadSharedMemory`, `UnloadSharedMemory`, `InitFromYMAL`, `InitFromYMALFile`, `HotUpdateLogger` | `Model/Recover`, `Logger`, `HotRead`, `Unload`, `Crash` |
| fn_parse.h | the whole parser, the readers of values, the recogniser of keys | `Model/Scan`, `Model/Parse`, `Model/Diag` |
| fn_fmt.h | all number, date and pointer formatting | `Model/Fmt` |
| fn_stream.h | `LogStream`: constructor, destructor, all `operator<<`, `write_*`, containers | `Model/Stream`, `Statement`, `Amounts`, `Move`, `Dump` |
| fn_file.h | `FileHandler`, `short_path`, `UDPHandler` | `Model/File`, `Inode`, `Flush`, `Dirs`, `Device`, `Stream`, `UdpIn`, `UdpOut`, `FileUse` |
| fn_out_*.h | file, screen, UDP, empty and virtual devices | `Model/File`, `Inode`, `Device`, `Statement`, `Bridge`, `UdpOut`, `FileUse` |
| fn_macro.h | all logging macros, `FastStartDefaultLogger`, `FastStartDebugLogger` | `Model/Macros`, `Model/Stream`, `Model/Start` |
| fn_log.h | all functions | `Model/Setters` |
| README, shipped yaml, texts in fn_macro.h | the bytes | `Model/Texts` |

Not modelled: Windows branches; console messages (except that for a refused configuration, C118); `sleep`; symbolic links; the resolver (its answers are a parameter, C129); what a hook
(`VirtualDevicePtr`) does with the record, except that it logs (`Model/Nest`) or transmits it (`Model/Bridge`); two file devices that share a file, except in `Model/Inode` (the other
theorems assume `FilesApart`; C71 says when default names guarantee it).

## Conventions

* Bytes of texts are `Char`s (code 0..255), C strings are lists.
* Undefined behaviour (access out of bounds, invalid shift, signed overflow, `clz(0)`, uninitialised read, null
  dereference) is a distinct outcome (`none`, `Out.ub`, `PRes.ub`). A loop that may not end takes fuel; running out
  of fuel is a distinct outcome, and termination theorems give an amount of fuel that suffices.
* Layout: `Verif/Model/*` definitions only, `Verif/Spec/*` independent specifications, `Verif/Proof/*` lemmas,
  `Verif/Props/*` the property theorems, with examples that show that hypotheses can be met.
* A theorem about part of a property has the suffix `_partial`; where the code violates a property the negation is
  proved with a witness (`…_counterexample`).

## The models

**Filters** (`Model/Filter`, C01-C05). `BlockInput` and the filter of `DispatchLog` as functions on the configuration;
`1ULL << category` is undefined from 64 on, `identify` ranges are added with an overflow check.

**Ring** (`Model/Ring`, C06-C17). A transition system with one step per shared access, any number of threads, any
`BUFFER_LEN`, any alphabet for texts. The four indices are totals of which only the value modulo `BUFFER_LEN` is used.
Proof: one invariant (`Proof/RingInv`, `RingStep`), order on async channels (`RingOrd`), responsibility for the next
hand-over (`RingResp`), draining (`RingDrain`), stop (`RingStop`), one thread (`RingAlone`), counters (`RingCount`),
the lap counterexample (`RingAba`), a statement that does not go on (`Stalled`, C89; a nested statement is a
further thread while the outer one makes no step). `Timely` excludes a thread that is delayed for a whole lap between loading an index
and its compare-and-swap; C12 shows that this is needed and when it always holds.

**Progress** (`Spec/Live`, C100, C101). Infinite schedules of the ring in which every active thread makes further steps (`Fair`).
`Proof/Live` shows with a rank per stage that a record is published, processed and released in the end; `Proof/Starve` shows that a
schedule whose state repeats with all positions moved by a multiple of `BUFFER_LEN` repeats for ever, for the counterexample.

**Sessions** (`Model/Sessions`, C111). `StartLogger` on what `StopLogger` has left, any number of times. `Proof/SessionsLike` shows that
a later session makes the steps of a first session whose threads already have their date caches; the theorems about one session
(C72, C91, C106, C108) are then used for each.

**Inodes** (`Model/Inode`, C109, C110). The file device once more, on a disk of directory entries and inodes: an open file is an
inode, `rename` and `remove` change entries and may fail, several devices (of any processes) and other programs use the disk.
`Proof/InodeView` shows that devices with files of their own see what `Model/File` says, which justifies its simplification that an
open file is its name. For shared files every line is appended whole, but rotation by one device takes the file away from the others.

**Recovery** (`Model/Recover`, C18-C22). On the memory image, with a refinement to the ring; crashes at any point of
any history, repeated.

**Formatting and stream** (`Model/Fmt`, `Model/Stream`, C23-C36, C65). Checked writes into a buffer of `LOG_SIZE`
bytes; specification by positional notation and calendar arithmetic.

**Parser** (`Model/Scan`, `Model/Parse`, C37-C45, C62, C63, C66). Executable; round trip with an independent renderer
of configurations (`Spec/Document`).

**Logger** (`Model/Logger`, C55-C59, C66). Sequences of calls to the API.

**File device** (`Model/File`, `FileTime`, C46-C54, C71). A map from names to sequences of blocks; `Runs` relates any history of
lines to the state of one device.

**Directories** (`Model/Dirs`, C80-C82). A tree of directories and files, path names resolved as the kernel does it, and
other processes that add entries between two calls. The file device (`Model/File`) keeps its own, simpler view: a file
can be opened or not. C81 says when it can.

**Setters** (`Model/Setters`, C88). The functions of fn_log.h, all of them loops over `SetDeviceConfig`-like assignments without its checks.

**Default logger** (`Model/Start`, C83). `FastStartDefaultLogger` and `FastStartDebugLogger` with the text in fn_macro.h.

**Hot update during logging** (`Model/HotRead`, C84). The assignments of `HotUpdateLogger` one by one, and `BlockInput`
and the filter of `DispatchLog` with each load seeing any part of them in any order (`Halfway`).

**Devices, statements** (`Model/Device`, `Model/Statement`, C28, C60, C61, C64, C67-C70). One thread, from the
macro to the devices.

**Macros** (`Model/Macros`, C85). Every macro of fn_macro.h 122-238 as a function to the arguments of the constructor of
`LogStream`, with `LogTemplatePack` and `LOG_FORMAT`.  Not modelled: that a macro argument is text (operator precedence).

**Threads** (`Model/Threads`, C72, C73). The same with any number of threads, `DispatchLog` one device at a time.
`acts_ok` shows that every schedule is a schedule of the ring, so that the theorems about the ring apply. `enter_congr`
(`Proof/Alone`) shows that what a device does depends on its own state and files only, so that every device, of any type, is
as if it had processed its records alone (`Spec.alone`).

**Channels** (`Model/Fleet`, C86). Any number of channels of one logger with a common file system, screen, network and date
caches. Each channel is the twin of a channel alone (`Twin`) whose schedule has the events of the channel and changes of date
caches.

**Threads and a hook** (`Model/Hook`, C87). The events of `Model/Threads`; the destructor calls the hook, without a lock, when
all operations of the statement have been done and before `PushLog`. Compared with the run without a hook: the statistics of
the device of the hook are offset by what it was called with, which no device reads (`Proof/Offset`); all else is equal.

**Weak memory** (`Model/Weak`, C74-C77). The ring again, with the modification order of each atomic variable, a view
per thread and per message, and plain accesses checked for order. Proof: every view is causally closed (`Good`), which
gives the invariant of the ring for the newest values although the loads are old (`WInv`).

**Threads under weak memory** (`Model/WeakThreads`, C90). The statements and devices of `Model/Threads` on the ring of
`Model/Weak`: C72 for every value the loads may return. The invariants of the two models are kept together (`WCrewInv`).

**Flushing** (`Model/Flush`, C91, C92; `Model/FlushRound`, C93). The events of `Model/Threads` with a buffer for each stream,
a C library that hands on any part of a buffer at any time, and the flush loops of `EnterProcChannel`, which take no lock. The
crew without buffers is kept beside it (`FRel`): what it has written is what the operating system has followed by the
buffer. All other models write through. `Model/Shut` (C95) adds the end of `StopLogger`, which cleans the queue and closes
the files. `Model/Durable` (C102) adds what is on the disk: what `fsync` was asked for, with file names durable at once.
C106 is about infinite schedules (`Spec/Reach`): each follows an infinite schedule of the ring (`ringSched`), to which C100
applies. C97 composes parser, loader, start, statements, devices, buffers and stop for async channels, and
for sync channels with one log statement at a time (`Spec.Serial`, C108), which is the only use of them that the README
allows ("only support single thread"); C13, C73, C92, C95 and C101 show what overlapping statements do there.

**Rotated files** (`Props/Periods`, `Props/Rotating*`, C49, C64, C72, C97). For names that depend on the time, each name is
followed for itself (`Spec.Fills`): rotating one file leaves the files of other names and their backups alone. With the theorems on
statements and threads this says which file a line of a program is in, as long as no backup was dropped.

**Life cycle from several threads** (`Model/Api`, C104, C105). Start, stop, load and hot update, with the recursive lock, the states and
the threads of the channels; queues and devices are left out. Proof: what the owner of the lock knows at each step (`Here`).
`Spec/Races` (C107) says which variables each step reads and writes; that this is complete is a theorem.
`Model/ApiLog` (C112) adds the log statements and the destructor, with the memory behind `shm_` as one object that is there or released.

**Statements inside of statements** (`Model/Nest`, C113). Any number of rings, and threads with a stack of the statements they are inside of.
Each ring follows an execution of `Model/Ring` of its own, in which statements of different depth are different threads (`ctx`); that these
executions are fair is shown by induction along the order of the channels, C100 does the rest.

**The life cycle while statements are in progress** (C114, on `Model/ApiLog`). What C104 and C105 say is stated again for runs with any
statements in progress. Sessions, results and threads do not depend on the statements. The rest is a simulation: as long as all
configurations have the same kinds of channels, a run with statements is, except for the states of sync channels, a run without.
Behind the last channel of a configuration the memory is zero, which is `CHANNEL_ASYNC`.

**Two processes on one segment** (`Model/Share`, C115). Two loggers of `Model/ApiLog`, each with its own lock, state and threads, that see
each other's changes of `channel_size_`, `channel_type_` and `channel_state_` as soon as both are attached. For processes that take turns
the invariant of C112 holds for the one whose turn it is (with a history of its own: the history is a ghost). `Ring.attach` is recovery
on a queue that is in use.

**Operands and objects** (`Model/Amounts`, C116; `Model/Move`, C117). The conversions of the constructors of `LogPercent` (double to float,
round to nearest even, IEEE 754) and `LogTimestamp` (division towards zero, conversion to unsigned), on top of `Model/Stream`. For C117 the
members of `LogStream` objects under any program of constructions, moves, uses and destructions; the specification reads who holds a statement from
the program text alone.

**Several writer threads on one queue** (`Model/Writers`, C119). The queue of `Model/Ring` with any number of threads inside `EnterProcChannel`,
one per process; a process comes when the queue is empty (`join`; `C119_join` says that this is the load of `Model/Share`). The invariant of
`Model/Ring` holds with the part about the one writer left out: it is the invariant of the same queue with `async := false`, where any thread may
process (`anyCons`). `outs` tags each output with its thread. That the writers end after a stop (`C119_ends_partial`) is for infinite schedules in
which each writer is run again and again; what is left to take and to release decreases, because a cleared mark that is next to be released
always has a thread that will look at it again (`RespR`).

**UDP input with its socket** (`Model/UdpIn`, C120). `Model/Device` (C69) has the loop over the datagrams with one thread and an open socket. Here
the socket is opened, bound and closed, any number of threads are between any two accesses of the round, and the device is switched, its address
changed, and the clock set meanwhile. `Single` (never two threads inside) is the hypothesis of the positive theorems; it always holds with one thread
(`C120_one_thread`). The operating system is: a socket with a queue that is lost by `close`; `bind` fails for a bound socket.

**UDP output by several threads** (`Model/UdpOut`, C126). On a sync channel every statement outputs, under the lock of the channel; `HotUpdateLogger` and
`StopLogger` do not take that lock. A step is one access to `handler_`, `open_ts_`, `addr_`, the configured address or the statistics, or one call to the
operating system, of any number of threads. The statistics are kept as the list of their increments.

**Use of a stream** (`Model/FileUse`, C127). Every access to `file_` of a file device in `open`, `close`, `write`, `flush` and `is_open`, by any number of
threads; outputs are under the lock of the channel, flushes and `StopLogger` are not. The decision to rotate and the answers of the operating system are
arbitrary. A call on a null or closed stream is undefined. Accesses to `file_` are in one order (that they race is not counted).

**Dumps** (`Model/Dump`, C128). `write_binary` with any `int` length, positions computed in `int`, memory that may not be readable; refines the dump of
`Model/Stream`.

**Crashes** (`Model/Crash`, C122). `Model/Flush` (queue, threads, devices and streams of an async channel) with any number of crashes between any
two steps: the slots, indices and statistics (shared memory) and the files stay, the threads, streams and sockets are gone, `LoadSharedMemory` completes
the slots. The proof carries the invariant of C72 and C91 (`CrewFrom`, `FInvFrom`) from one process to the next; what is in a slot that is being written is
a beginning of a line that used the slot (`Printed`). Not modelled: another configuration in the new process, sync channels.

**A sync channel after a crash** (C125) uses `Model/Ring` and `Ring.recover`: nobody but a log statement empties the queue of a sync channel. The proof
executes one statement symbolically from any state in which nobody else is inside a call (`Proof/CatchUp`).

**Killed while loading** (`Model/Reload`, C124). The memory images between the stores of `LoadSharedMemory` (`Model/Recover`) as relations (`SlotCut`,
`RingCut`, `SegCut`, `Killed`): program order, except for the bytes of the `memcpy` and the two stores of `content_[content_len_++] = '\n'`, which may come
in any order. A new segment is zero-filled (`zeroShm`). Not modelled: kills inside the later part of `InitFromYMAL`, which stores the configuration only.

**Following the file** (C123). Sequences of the calls of `HotUpdateLogger` (`Model/Logger`) by all channels while the file changes; `Spec/Follow`
says what the author of the file expects.

**Forwarding** (`Model/Bridge`, C121). A hook that transmits to another channel (tests/test_trans_log.cpp): the statements of `Model/Statement` on
several source channels with the target beside them, one thread, sync. The date cache is common, the outputs of the channels are apart.

**The report of a refused configuration** (`Model/Diag`, C118). The parser once more, with `line_no_` and, after an error, `current_` and the
text with the replacements made so far; erasing these gives the parser of `Model/Parse` (`C118_same_verdict`). `Spec/Diag` defines the lines of a
file, the lines reached from its beginning, and what makes a line refused. Replacements keep the ends of lines where they are.

**Statistics** (`Model/Tally`, C78, C79). The ring with the statistics that are read from a record after it was handed
on: bytes per priority, longest queue, longest delay. `Prompt` excludes a log statement that is delayed for a lap of the
ring between marking its record and reading its priority again; C78 shows that this is needed.

## Where the code violates a property

Each has a theorem `Cnn_…_counterexample` (or the name given).

* C05: a priority of 7 or more counts outside of the statistics array.
* C12: a thread delayed for a lap of the ring makes a full queue look empty; output stops for ever.
* C13: on a sync channel the records of one thread may be output out of program order.
* C14, C15: a stop during log statements loses records, and leaves marks that make the next session skip.
* C16: on sync channels the byte counter loses updates.
* C18, C19, C21: recovery outputs a stale text for a slot taken but not written; a crash in the index reset repeats
  all records; an index out of range makes re-attachment loop for ever.
* C23, C32-C34: `LLONG_MIN`, hexadecimal zero (`clz(0)`), padding of binary numbers (bytes never written).
* C25: an alignment that would fit is skipped when its width does not fit.
* C36, C50: days with a clock change, after a line (C36) or in a file (C50) from before the change. `mktime` is given the
  `tm_isdst` of the timestamp, so the first line after the change computes its own midnight; in
  zones with changes by half an hour the file device then takes 00:30 for it, since the first `mktime` (for the hour)
  leaves 30 minutes in `day`.
* C65: the sign of small negative numbers and of `-inf` is lost.
* C37, C40, C53: a macro whose value contains its key and a process name containing `$PNAME` hang the logger.
* C43: bit numbers from 64 on are an undefined shift; lists separated by blanks keep the first number only.
* C44: `shm_key_` is not initialised.
* C45, C55: a file without a channel overwrites the old configuration, resp. clears the filter of channel 0.
* C46: a number of backups of 2^31 becomes negative and rotation deletes the log.
* C48: with `stuff_up` a reopened file exceeds the limit, by one line per session; with daily or hourly rolling as well, lines of
  two periods that alternate make a file of any size, because the size looked at is that of the other file (and that one is
  rotated).
* C51: failed writes are counted as written.
* C57-C59: stop before loading is undefined; a thread that cannot be created makes start wait for ever; setters do not
  check the field.
* C60: the hook is asked for device 0 when there is no virtual device.
* C62: the examples of the manual and both shipped yaml files are refused with the default limits.
* C67-C69: a NUL cuts a line on the screen; a line refused by `sendto` is both lost and written; UDP input shows the
  tail of an earlier datagram.
* C70: admission looks at the category before `set_category`, output at the one after.
* C71: default names of device 11 of channel 1 and device 1 of channel 11 coincide.
* C73: two devices of a sync channel may show two records in different orders.
* C76: with acquire loads two threads may miss each other's marks and leave a record unpublished.
* C77: with a plain `channel_state_` the worker may leave its loop with a stale `write_idx_`.
* C78: a log statement delayed between lines 499 and 500 counts the priority and the length of another record.
* C79: on sync channels the longest queue and the longest delay may decrease.
* C80: `create_dir` gives up if another process makes the same directory, or if a directory on the way can not be read.
* C81: directories in the option `file` are not made.
* C82: a program path of 499 bytes or more gives a wrong process name.
* C83: the default logger uses the uninitialised `shm_key_` (C44).
* C84: during a hot update a log may be admitted that both configurations refuse, or the other way round, and the
  mixture of two harmless ranges may overflow.
* C89: a log statement that does not go on blocks its channel as soon as the queue is full behind it.
* C92: on a sync channel a thread may flush a stream that another thread has closed to rotate the file, or StopLogger.
* C93: a line received by UDP stays in the stream buffer until the next record is dispatched.
* C99: a value of more than 40 characters behind `shm_key` is 0; leading zeros make it octal.
* C107: the checks in front of the lock, and all accesses to `channel_state_`, are data races.
* C112: a log statement races with `StopLogger` for `logger_state_` and `channel_state_`; a statement in progress when the logger is
  destroyed uses released memory.
* C113: hooks or operands that forward in both directions between two channels: both threads may wait for a slot for ever.
* C114: a statement delayed in fn_channel.h 187-189 over a stop, a load in which its channel becomes async, and a start: the next
  `StopLogger` may never return.
* C115: `LoadSharedMemory` attaches to a segment another process uses: that process loses its threads, or its `StopLogger` never returns;
  lines are torn or output twice.
* C122: what is in the stdio buffers when a process is killed is lost, though the next one reads the queue; the record at the head may be
  written twice; a slot that was acquired but not yet emptied comes back as an old line with priority FATAL.
* C124: a process killed inside `LoadSharedMemory`: the marker is appended twice (two lines), possibly with a stale byte in between; killed while
  it creates the segment, every later start is refused with `E_SHM_VERSION_WRONG`.
* C125: a process killed while one thread was held up in the output of a sync channel and others went on: the next process outputs their lines again,
  or, if the queue was full, every log statement on that channel blocks for ever.
* C123: a configuration file with `hot_update` off reaches only the first channel that looks; two versions of the file within a second count
  as one; devices that are removed from the file go on; a virtual device that is added is never asked.
* C116: `LogPercent(0.29)` prints `28.9999%`, negative percentages print `00.00%`; `LogTimestamp(ms)` before 1970 prints another second.
* C119: two writer threads on one queue output lines out of order; one that begins late undoes the stop of the other process; after a crash a
  line may be output twice.
* C120: overlapping statements on a sync channel with a UDP input overwrite each other's datagram, close each other's socket, or lose a socket for
  ever; a changed address is not bound while the device is enabled; a device with UDP input and output may never bind its socket.
* C126: an address changed while a line is output to a UDP device may be used half; a statement in progress on a sync channel opens the socket of a UDP
  device after `StopLogger` has closed it.
* C127: on a sync channel `StopLogger`, or a rotation while another thread flushes, may close the stream of a file between its test and its use.
* C128: `write_binary` with a length of 2147483616 or more overflows an `int`.
* C129: a host name in `udp_addr` behind `disable: true` is not resolved and its port is lost; ports are taken modulo 65536.
* C118: a key in the wrong section is reported one line too late; a variable without `=` is an "unknown error.".
* C104: `StopLogger` holds `state_lock_` while it joins the threads of the channels; `HotUpdateLogger` takes it on such a thread: deadlock.
* C103: channels read filter numbers with `atoi`, devices with `atoll`: a channel takes `identify: 4294967301` for 5.
* C102: `close` calls `fsync` before `fclose`; a file closed by rotation with something in its buffer is not on the disk.
* C101: StopLogger during log statements on a sync channel may leave a statement that never returns, and loses lines that are published and not yet processed.
* C100: a thread may lose every compare-and-swap on `hold_idx_` and so never get a slot, in a fair schedule.
* C98: the destructor decides by `shm_key_`, which every load overwrites, what kind of memory `shm_` is: it may remove a foreign
  segment or `delete` a segment. After an exception from StartLogger it never ends.
* C95: StopLogger does not wait for log statements on sync channels; they open the file again and leave the channel running.

## Testing the theorems

`seeded/LOG.jsonl` lists wrong versions of model definitions, made in a scratch copy, with the theorems that failed and
those that were tightened because they did not.
