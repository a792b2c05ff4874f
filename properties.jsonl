{"id": "C01", "title": "A log call is admitted exactly when the documented filters pass", "statement": "BlockInput refuses a log call exactly when: the logger is not loaded or not running, the channel id is out of range or the channel is not running, the priority is below the channel threshold, the category or identify fails the channel's range or 64-bit mask, or no enabled ordinary (non-input) device of the channel would take it by its own threshold, ranges and masks. Otherwise it is admitted.", "quantifier": "every logger state, channel id, priority, category, identify and every channel/device configuration (any number of devices)", "why_tests_cant": "The decision depends on 6 channel fields and 8 fields of each device; tests sample a handful of combinations.", "anchors": ["src/include/fn_channel.h:BlockInput"]}
{"id": "C02", "title": "Each device receives a log exactly when its own filter accepts it", "statement": "When a queued log is dispatched, the devices that process it are exactly the enabled non-input devices whose priority threshold, category range, identify range and masks accept it, each one once and in device-id order; other devices are untouched.", "quantifier": "every log record and every list of device configurations", "why_tests_cant": "Unbounded combinations of device lists and filter fields.", "anchors": ["src/include/fn_channel.h:DispatchLog", "src/include/fn_channel.h:EnterProcDevice"]}
{"id": "C03", "title": "Admission and dispatch agree", "statement": "For a priority in TRACE..FATAL, unchanged configuration and unchanged category, a log is admitted by BlockInput if and only if the channel filter passes and DispatchLog will hand it to at least one device: nothing is admitted that no device takes, and nothing a device would take is refused.", "quantifier": "every channel configuration, device list, category and identify, and every in-range priority", "why_tests_cant": "Two separately written filters must agree on all inputs.", "anchors": ["src/include/fn_channel.h:BlockInput", "src/include/fn_channel.h:DispatchLog"]}
{"id": "C04", "title": "White and black lists mean what the manual says", "statement": "With category_wlist (resp. blist) configured to a set of numbers in 0..63, a log whose category is in 0..63 passes the mask exactly when its category is in (resp. not in) the list; the same for identify. The only exceptions are an empty white list and a black list of all 64 values, which leave filtering off.", "quantifier": "every list of numbers and ranges below 64 and every category in 0..63", "why_tests_cant": "2^64 possible masks.", "anchors": ["src/include/fn_parse.h:ParseBitArray", "src/include/fn_channel.h:DispatchLog", "src/include/fn_channel.h:BlockInput"]}
{"id": "C05", "title": "Priority values outside the enum", "statement": "A priority at or above PRIORITY_MAX is filtered like FATAL, and accounting a log of priority TRACE..FATAL touches only that priority's counter. Accounting a log whose priority is outside the enum must not corrupt other counters.", "quantifier": "every int priority", "why_tests_cant": "The out-of-range index only shows for values tests never pass.", "anchors": ["src/include/fn_channel.h:BlockInput", "src/include/fn_channel.h:PushChannel", "src/include/fn_out_empty_device.h:EnterProcOutEmptyDevice"]}
{"id": "C06", "title": "Exclusive ownership of a ring slot", "statement": "From the moment a log statement obtains its slot until it is published, no other thread holds, writes or outputs that slot, and while a consumer outputs a slot no producer holds it.", "quantifier": "every number of threads, every interleaving of their atomic steps (no full ring lap inside one compare-and-swap window), every ring size", "why_tests_cant": "Race windows of a few instructions; unit tests see one schedule.", "anchors": ["src/include/fn_channel.h:HoldChannel", "src/include/fn_channel.h:PushChannel", "src/include/fn_channel.h:EnterProcChannel"]}
{"id": "C07", "title": "Every log is output at most once, unaltered, and never invented", "statement": "Every record output by a channel is the final content of one log statement that was published on the channel, no log statement is output twice, and its content is the content it had when it was published.", "quantifier": "every number of producer threads, every interleaving (no full ring lap inside one compare-and-swap window), sync and async channels, every history length", "why_tests_cant": "Needs all schedules and unbounded histories.", "anchors": ["src/include/fn_channel.h:HoldChannel", "src/include/fn_channel.h:PushChannel", "src/include/fn_channel.h:EnterProcChannel"]}
{"id": "C08", "title": "An async channel outputs in acquisition order", "statement": "On an async channel the outputs are exactly the first n log statements in the order in which they acquired their slots; in particular two log statements of one thread appear in program order.", "quantifier": "every number of producers, every interleaving, every history", "why_tests_cant": "Ordering bugs need particular schedules.", "anchors": ["src/include/fn_channel.h:EnterProcChannel", "src/include/fn_channel.h:PushChannel"]}
{"id": "C09", "title": "The queue never overwrites: bounded occupancy and blocking producers", "statement": "At any time at most BUFFER_LEN-1 log statements hold a slot that has not been released by the consumer; when the queue is full a log statement cannot obtain a slot until the consumer releases one.", "quantifier": "every schedule and every history, every BUFFER_LEN >= 2", "why_tests_cant": "Wrap-around and full-queue corner cases at arbitrary history lengths.", "anchors": ["src/include/fn_channel.h:HoldChannel", "src/include/fn_data.h:RingBuffer"]}
{"id": "C10", "title": "When all log statements have returned nothing is left behind (running channel)", "statement": "If the channel was never stopped and every thread is outside the logging calls, then every acquired slot has been published; on a sync channel every log has moreover been output exactly once and every slot released.", "quantifier": "every number of threads, every interleaving, every history", "why_tests_cant": "A lost hand-off between publishers needs a precise interleaving.", "anchors": ["src/include/fn_channel.h:PushChannel", "src/include/fn_channel.h:EnterProcChannel"]}
{"id": "C11", "title": "Stopping drains everything already logged", "statement": "If every log statement on an async channel had returned before StopLogger was called, then when the writer thread reports finished every one of those logs has been output, exactly once, in order; and the writer thread does finish when it keeps being scheduled.", "quantifier": "every history before the stop, every interleaving after it", "why_tests_cant": "Drain correctness depends on the queue state at the stop point.", "anchors": ["src/include/fn_channel.h:EnterProcChannel", "src/include/fn_core.h:StopChannels", "src/include/fn_core.h:StopLogger"]}
{"id": "C12", "title": "A stalled thread cannot corrupt the queue", "statement": "However long a thread is descheduled in the middle of a log statement, the queue stays consistent and C07 holds.", "quantifier": "every interleaving, including a stall during which the ring advances by a multiple of BUFFER_LEN", "why_tests_cant": "The failing schedule needs an exact full lap inside one instruction window.", "anchors": ["src/include/fn_channel.h:HoldChannel", "src/include/fn_channel.h:PushChannel"]}
{"id": "C13", "title": "A sync channel outputs in program order", "statement": "On a sync channel two successive log statements of one thread are output in program order, and a log statement has been output when it returns.", "quantifier": "every number of threads and every interleaving", "why_tests_cant": "Depends on which thread happens to drain the queue.", "anchors": ["src/include/fn_channel.h:PushChannel", "src/include/fn_channel.h:EnterProcChannel"]}
{"id": "C14", "title": "A published log survives a stop", "statement": "A log statement that returned before StopLogger was called is output before StopLogger returns, even if other log statements are still in progress.", "quantifier": "every interleaving of producers with StopLogger", "why_tests_cant": "Depends on a slower neighbour holding an earlier slot.", "anchors": ["src/include/fn_channel.h:PushChannel", "src/include/fn_core.h:StopLogger"]}
{"id": "C15", "title": "Stop followed by start begins from a clean queue", "statement": "After StopLogger completes, a new session behaves like a fresh one: no log of the previous session is output in the new one.", "quantifier": "every reachable queue state at the time of the stop", "why_tests_cant": "Residual slot marks only matter under particular later interleavings.", "anchors": ["src/include/fn_core.h:CleanChannels", "src/include/fn_core.h:StopLogger"]}
{"id": "C16", "title": "Channel counters count what they say", "statement": "At every point CHANNEL_LOG_HOLD is the number of slots acquired, CHANNEL_LOG_PUSH the number published to the consumer and CHANNEL_LOG_PROCESSED the number output, up to the increments still pending in running calls; so PUSH and PROCESSED never exceed HOLD, with equality of all three once the channel is idle and drained; on an async channel the byte counter is exactly the bytes of the processed logs up to the increment in progress.", "quantifier": "every schedule and every history", "why_tests_cant": "Needs all interleavings.", "anchors": ["src/include/fn_channel.h:HoldChannel", "src/include/fn_channel.h:PushChannel", "src/include/fn_channel.h:EnterProcChannel"]}
{"id": "C17", "title": "The queue cannot get stuck", "statement": "Whenever a log statement is waiting for a full queue and no log statement is between acquiring and publishing its slot, letting the writer thread run releases a slot after a bounded number of its own steps; and whenever a log statement runs alone with a free slot it completes.", "quantifier": "every reachable state of the running async channel", "why_tests_cant": "Deadlock freedom is a statement about all reachable states.", "anchors": ["src/include/fn_channel.h:HoldChannel", "src/include/fn_channel.h:EnterProcChannel"]}
{"id": "C18", "title": "Crash recovery keeps every acquired log", "statement": "Re-attaching to the shared-memory queue after a crash at any instant makes every log that was acquired but not yet released available to the consumer again: published ones byte-for-byte unchanged, in order, unpublished ones marked FATAL with '!!!core recover!!!' and a newline appended to what had been written.", "quantifier": "every crash point of every interleaving, every ring size", "why_tests_cant": "The crash may happen between any two instructions.", "anchors": ["src/include/fn_load.h:LoadSharedMemory"]}
{"id": "C19", "title": "Crash recovery repeats at most one log (async)", "statement": "On an async channel at most one log that had already been output before the crash is output again after recovery.", "quantifier": "every crash point of every interleaving", "why_tests_cant": "Crash-point enumeration.", "anchors": ["src/include/fn_load.h:LoadSharedMemory", "src/include/fn_channel.h:EnterProcChannel"]}
{"id": "C20", "title": "Recovery stays inside the slot", "statement": "For any content length between 0 and LOG_SIZE in a recovered slot the appended marker, newline and NUL stay inside the slot and the resulting line ends with the marker and newline; at most the tail of an over-long line is lost.", "quantifier": "every content and length", "why_tests_cant": "Boundary lengths.", "anchors": ["src/include/fn_load.h:LoadSharedMemory"]}
{"id": "C21", "title": "Recovery rejects or repairs damaged indices", "statement": "Re-attach terminates for every index combination found in the segment; out-of-range write or read positions are refused.", "quantifier": "all int values of the four stored indices", "why_tests_cant": "2^128 combinations; one of them loops forever.", "anchors": ["src/include/fn_load.h:LoadSharedMemory"]}
{"id": "C22", "title": "A segment of another layout is refused untouched", "statement": "Attaching to a segment whose recorded size or id differs returns the version error and changes nothing in the segment or in the logger's queue pointer.", "quantifier": "every segment content", "why_tests_cant": "All header values.", "anchors": ["src/include/fn_load.h:LoadSharedMemory"]}
{"id": "C23", "title": "Streaming never writes outside the log record", "statement": "For every sequence of << operations after a prefix that fits, every byte written lies inside the fixed-size record and the recorded length stays at most LOG_SIZE.", "quantifier": "every sequence of stream operations of any length with any arguments, every starting length up to LOG_SIZE", "why_tests_cant": "Memory safety at every fill level.", "anchors": ["src/include/fn_stream.h:LogStream", "src/include/fn_fmt.h:write_dec_unsafe"]}
{"id": "C24", "title": "A published line is newline-terminated, NUL-terminated and bounded", "statement": "Publishing a record of any length 0..LOG_SIZE yields a line whose length is min(len, LOG_SIZE-2)+1, whose bytes are the first min(len, LOG_SIZE-2) bytes followed by a newline, with a NUL after it inside the record.", "quantifier": "every content and length", "why_tests_cant": "Boundary lengths.", "anchors": ["src/include/fn_channel.h:PushChannel"]}
{"id": "C25", "title": "What is streamed is what is logged", "statement": "If everything fits with 40 bytes to spare, the text of the published line is the prefix followed by the concatenation, in order, of the renderings of the streamed values, followed by a newline.", "quantifier": "every operation sequence", "why_tests_cant": "Unbounded sequences.", "anchors": ["src/include/fn_stream.h:LogStream"]}
{"id": "C26", "title": "Over-long text is truncated, never corrupted", "statement": "If only strings are streamed, the published line is the longest prefix of the intended text that fits in LOG_SIZE-2 bytes, followed by a newline; for arbitrary operations the line consists of a subsequence of the operations' renderings where only string pieces may be cut.", "quantifier": "every sequence of strings of any length", "why_tests_cant": "All overflow points.", "anchors": ["src/include/fn_stream.h:write_buffer", "src/include/fn_channel.h:PushChannel"]}
{"id": "C27", "title": "The prefix contains the requested fields in order and fits", "statement": "The prefix of a log line consists of exactly the fields selected by the prefix mask, in the order timestamp, priority, thread, logger name, description, file:line, function, followed by one blank; it stays inside the record whenever the shortened file name and the function name together are at most LOG_SIZE-400 bytes.", "quantifier": "all 128 prefix masks, all names, file and function strings", "why_tests_cant": "Unbounded strings.", "anchors": ["src/include/fn_stream.h:LogStream", "src/include/fn_file.h:short_path"]}
{"id": "C28", "title": "A refused log has no effect", "statement": "If admission refuses a log statement, none of its << operations changes any slot, counter or file, and nothing is pushed.", "quantifier": "every operation sequence and every refusing configuration", "why_tests_cant": "All operation kinds.", "anchors": ["src/include/fn_stream.h:LogStream", "src/include/fn_channel.h:HoldChannel"]}
{"id": "C29", "title": "Containers are rendered with at most five elements", "statement": "Streaming a container prints its kind, its size, at most the first five elements separated by ', ' and an ellipsis exactly when there are more.", "quantifier": "every list of elements", "why_tests_cant": "Unbounded sizes.", "anchors": ["src/include/fn_stream.h:write_container"]}
{"id": "C30", "title": "printf-style logging cannot overflow", "statement": "A LOG_FORMAT call writes at most LOG_SIZE-1 content bytes for any format result (including an error), and the line is the prefix followed by the formatted text cut to the room left.", "quantifier": "every prefix length below LOG_SIZE and every formatted text", "why_tests_cant": "Boundary lengths.", "anchors": ["src/include/fn_macro.h:LOG_FORMAT"]}
{"id": "C31", "title": "Unsigned integers are printed in decimal", "statement": "Streaming an unsigned 64-bit value prints its canonical decimal numeral (no leading zeros, '0' for zero), with a width W<=30 it is left-padded with zeros to W; reading the digits back gives the value.", "quantifier": "all 2^64 values and all widths up to 30", "why_tests_cant": "2^64 values.", "anchors": ["src/include/fn_fmt.h:write_dec_unsafe"]}
{"id": "C32", "title": "Signed integers are printed in decimal", "statement": "Streaming a signed 64-bit value prints its canonical decimal numeral with '-' for negatives.", "quantifier": "all 2^64 values", "why_tests_cant": "2^64 values; the minimum value is special.", "anchors": ["src/include/fn_fmt.h:write_dec_unsafe"]}
{"id": "C33", "title": "Hexadecimal output is correct", "statement": "write_hex_unsafe<W> prints the upper-case hexadecimal numeral of the value left-padded with zeros to W characters, and exactly that many characters are written.", "quantifier": "all values and all W up to 16", "why_tests_cant": "2^64 values; zero is special.", "anchors": ["src/include/fn_fmt.h:write_hex_unsafe", "src/include/fn_stream.h:write_binary"]}
{"id": "C34", "title": "Binary output is correct", "statement": "write_bin_unsafe<W> prints the binary numeral of the value left-padded with zeros to W characters.", "quantifier": "all values and widths", "why_tests_cant": "2^64 values; padding is special.", "anchors": ["src/include/fn_fmt.h:write_bin_unsafe"]}
{"id": "C35", "title": "Doubles are printed with up to four decimals", "statement": "For a magnitude in [0.0001, 2^60] the text is optional '-', the integer part in decimal, and if the first four decimals are not all zero a '.' followed by them with trailing zeros beyond the second removed; it is at most 25 bytes.", "quantifier": "every sign, integer part below 2^60 and 4-digit fraction", "why_tests_cant": "2^64 doubles.", "anchors": ["src/include/fn_fmt.h:write_double_unsafe"]}
{"id": "C36", "title": "Timestamps show the local time, whatever was logged before", "statement": "The date prefix of a log is [YYYYMMDD hh:mm:ss.mmm] of its own timestamp in local time, independent of the per-thread cache left by earlier logs.", "quantifier": "every sequence of timestamps in any order (forward and backward clock moves)", "why_tests_cant": "The cache makes the result history-dependent.", "anchors": ["src/include/fn_fmt.h:write_date_unsafe"]}
{"id": "C37", "title": "Loading any configuration text terminates", "statement": "Parsing any configuration text returns (with success or an error code) after finitely many steps.", "quantifier": "every byte string", "why_tests_cant": "Non-termination cannot be shown by tests; the inputs are unbounded.", "anchors": ["src/include/fn_parse.h:ParseLogger", "src/include/fn_parse.h:Lex", "src/include/fn_parse.h:PredefinedInplace"]}
{"id": "C38", "title": "A parsed configuration is well-formed", "statement": "If parsing succeeds, channels are numbered 0,1,.. without gaps, at most MAX_CHANNEL_SIZE; each channel's devices are numbered 0,1,.. without gaps, at most MAX_DEVICE_SIZE; no configured device has output type null set explicitly; file and path texts are NUL-terminated inside their arrays.", "quantifier": "every byte string", "why_tests_cant": "Unbounded inputs.", "anchors": ["src/include/fn_parse.h:ParseLogger", "src/include/fn_parse.h:ParseChannel", "src/include/fn_parse.h:ParseDevice"]}
{"id": "C39", "title": "Writing a configuration and parsing it gives it back", "statement": "Rendering a list of channels and devices in the documented YAML subset and parsing the text yields exactly that configuration.", "quantifier": "every configuration within the documented value ranges", "why_tests_cant": "Unbounded configurations.", "anchors": ["src/include/fn_parse.h:ParseLogger", "src/include/fn_parse.h:Lex"]}
{"id": "C40", "title": "Comments, blank lines and line endings are irrelevant", "statement": "Inserting blank or comment lines anywhere between lines, appending comments, or changing between LF and CRLF line ends does not change the parsed configuration.", "quantifier": "every text and every insertion", "why_tests_cant": "Unbounded texts.", "anchors": ["src/include/fn_parse.h:Lex"]}
{"id": "C41", "title": "Every documented key is recognised, and only as itself", "statement": "Each key documented in the manual is mapped to its own meaning; keys are recognised from their text only.", "quantifier": "all documented keys; all byte strings for the memory bounds of the recogniser", "why_tests_cant": "Recognition looks at a few letters only.", "anchors": ["src/include/fn_parse.h:ParseReserve"]}
{"id": "C42", "title": "Macro and variable substitution is in-place and scoped", "statement": "A define/var replaces only occurrences after its definition, never changes the length of the text or anything before it, replaces whole names only (define), pads with blanks, and refuses a replacement longer than the name.", "quantifier": "every text, name and value", "why_tests_cant": "Unbounded texts.", "anchors": ["src/include/fn_parse.h:PredefinedInplace", "src/include/fn_parse.h:PredefinedMacro", "src/include/fn_parse.h:PredefinedVar"]}
{"id": "C43", "title": "Bit lists denote the set of listed numbers", "statement": "A list like '1, 4-7, 9' denotes exactly the set of numbers and inclusive ranges (in either order) it lists.", "quantifier": "every list of items below 64, with any blanks around separators", "why_tests_cant": "Unbounded lists.", "anchors": ["src/include/fn_parse.h:ParseBitArray"]}
{"id": "C44", "title": "The configuration alone determines the result", "statement": "Loading the same text always gives the same configuration; in particular without a shm_key line no shared memory is used.", "quantifier": "every text and every prior memory content", "why_tests_cant": "Depends on uninitialised memory.", "anchors": ["src/include/fn_parse.h:ParseLogger", "src/include/fn_load.h:InitFromYMAL"]}
{"id": "C45", "title": "A rejected configuration leaves the logger unchanged", "statement": "If the text has a syntax error, InitFromYMAL and HotUpdateLogger return the error and change no configuration, name, key or queue.", "quantifier": "every erroneous text and every logger state", "why_tests_cant": "All error positions.", "anchors": ["src/include/fn_load.h:InitFromYMAL", "src/include/fn_load.h:HotUpdateLogger"]}
{"id": "C46", "title": "File rotation shifts backups and loses only the oldest", "statement": "Rotating F with N backups moves F to F.1 and F.i to F.(i+1) for the contiguous run of existing backups, deletes only F.N (when the run reaches it), touches no other file, and afterwards F does not exist.", "quantifier": "every file-system content, every N, every base name not ending in '.digits'", "why_tests_cant": "Unbounded N and directory contents.", "anchors": ["src/include/fn_file.h:FileHandler::rollback"]}
{"id": "C47", "title": "At most N backups are created", "statement": "Starting from a directory with no backup beyond F.N, any number of rotations never creates a file F.k with k > N.", "quantifier": "every number of rotations", "why_tests_cant": "Histories.", "anchors": ["src/include/fn_file.h:FileHandler::rollback"]}
{"id": "C48", "title": "Size-limited files respect the limit", "statement": "With limit_size > 0 and rollback > 0 a log file never exceeds limit_size unless it consists of one single line longer than the limit.", "quantifier": "every sequence of log lines, every limit", "why_tests_cant": "Histories, including restarts that append to an existing file (stuff_up).", "anchors": ["src/include/fn_out_file_device.h:OpenFileDevice", "src/include/fn_out_file_device.h:EnterProcOutFileDevice"]}
{"id": "C49", "title": "Rotation loses no line inside the retention window", "statement": "The concatenation of the oldest kept backup to the current file is a suffix of all lines written, and contains all of them as long as fewer than N rotations have happened.", "quantifier": "every sequence of lines", "why_tests_cant": "Histories.", "anchors": ["src/include/fn_out_file_device.h:OpenFileDevice", "src/include/fn_file.h:FileHandler::rollback"]}
{"id": "C50", "title": "Daily and hourly rolling puts each line into the file of its own period", "statement": "With rolldaily (rollhourly) every line is written to a file whose name was generated from a timestamp of the same local day (hour), even if timestamps go backwards.", "quantifier": "every sequence of timestamps", "why_tests_cant": "Histories.", "anchors": ["src/include/fn_out_file_device.h:OpenFileDevice"]}
{"id": "C51", "title": "File statistics are exact", "statement": "TOTAL_WRITE_LINE and TOTAL_WRITE_BYTE of a file device equal the number and total size of the lines handed to it while its file was open, and the per-priority byte counters add up to TOTAL_WRITE_BYTE.", "quantifier": "every sequence of lines and open failures", "why_tests_cant": "Histories.", "anchors": ["src/include/fn_out_file_device.h:EnterProcOutFileDevice"]}
{"id": "C52", "title": "Open failures are retried no more than every five seconds and recover", "statement": "After a failed open, lines with a timestamp less than 5 s later are skipped without touching the file system; the first line at least 5 s later tries again, and if the open succeeds it is written.", "quantifier": "every sequence of timestamps and open results", "why_tests_cant": "Histories.", "anchors": ["src/include/fn_out_file_device.h:EnterProcOutFileDevice", "src/include/fn_out_file_device.h:OpenFileDevice"]}
{"id": "C53", "title": "File-name patterns are substituted completely and terminate", "statement": "Generating a file name replaces every $PNAME $PID $YEAR $MON $DAY $HOUR $MIN $SEC and %F by its value, leaves all other text unchanged, and terminates whenever the process name contains no '$'.", "quantifier": "every pattern, time and process name without '$' and '%'", "why_tests_cant": "Unbounded patterns; non-termination.", "anchors": ["src/include/fn_out_file_device.h:FmtName", "src/include/fn_out_file_device.h:PreFmtName", "src/include/fn_out_file_device.h:MakeFileName"]}
{"id": "C54", "title": "short_path keeps at most the last three path components", "statement": "The shortened source path is the suffix after the third last separator, or the whole path if there are fewer than three.", "quantifier": "every path", "why_tests_cant": "Unbounded paths.", "anchors": ["src/include/fn_file.h:short_path"]}
{"id": "C55", "title": "Hot update changes filters, never history", "statement": "A successful hot update gives the channel and its existing devices the new configuration fields, keeps their output type, file, path and all counters, appends new devices, never removes one, and keeps the device count within bounds and numbering gap-free.", "quantifier": "every old and new configuration produced by the parser", "why_tests_cant": "All pairs of configurations.", "anchors": ["src/include/fn_load.h:HotUpdateLogger"]}
{"id": "C56", "title": "Hot update is rate limited and idempotent", "statement": "The configuration file is examined at most once every 5 seconds per channel, and an unchanged file changes nothing.", "quantifier": "every sequence of times and file states", "why_tests_cant": "Histories.", "anchors": ["src/include/fn_load.h:HotUpdateLogger"]}
{"id": "C57", "title": "Logger life cycle", "statement": "Start succeeds only on a loaded, stopped logger with 1..MAX channels; starting a running logger and stopping a stopped one return errors and change nothing; a successful start makes every channel accept logs and a successful stop makes every channel refuse them.", "quantifier": "every sequence of start/stop/load calls", "why_tests_cant": "Histories.", "anchors": ["src/include/fn_core.h:StartLogger", "src/include/fn_core.h:StopLogger", "src/include/fn_core.h:StartChannels", "src/include/fn_core.h:StopChannels"]}
{"id": "C58", "title": "A failed start returns", "statement": "If starting an async channel's thread times out, StartLogger returns an error.", "quantifier": "every scheduling of the new thread", "why_tests_cant": "Needs a slow thread start.", "anchors": ["src/include/fn_core.h:StartChannels", "src/include/fn_core.h:StopChannels", "src/include/fn_channel.h:EnterProcChannel"]}
{"id": "C59", "title": "Configuration setters touch only their target and never write out of bounds", "statement": "SetChannelConfig/SetDeviceConfig change exactly one field of one existing channel/device and ignore invalid ids and fields; the batch setters change exactly the devices of the given type; getters return what was last set.", "quantifier": "every id, field, value and operation sequence", "why_tests_cant": "All index combinations.", "anchors": ["src/include/fn_core.h:SetChannelConfig", "src/include/fn_core.h:SetDeviceConfig", "src/include/fn_core.h:GetDeviceConfig", "src/include/fn_core.h:BatchSetDeviceConfig", "src/include/fn_core.h:BatchSetChannelConfig"]}
{"id": "C60", "title": "The virtual-device hook fires only for channels with a matching virtual device", "statement": "The hook set by SetVirtualDevice is called once for a log exactly when its channel has a configured virtual device whose threshold, ranges and masks accept the log.", "quantifier": "every configuration and log", "why_tests_cant": "All configurations.", "anchors": ["src/include/fn_stream.h:~LogStream", "src/include/fn_out_virtual_device.h:EnterProcOutVirtualDevice", "src/include/fn_parse.h:ParseChannel"]}
{"id": "C61", "title": "Transmitting a log copies it faithfully", "statement": "TransmitChannel to another channel that admits it publishes a log with the same text, time, thread and source position and the given category/identify; to the same channel or to a refusing one it does nothing.", "quantifier": "every log content and length 0..LOG_SIZE", "why_tests_cant": "All contents.", "anchors": ["src/include/fn_channel.h:TransmitChannel"]}
{"id": "C62", "title": "Documented configuration examples load", "statement": "The configuration examples printed in the manual are accepted by the parser.", "quantifier": "the documented texts", "why_tests_cant": "Documentation is not tested.", "anchors": ["src/include/fn_parse.h:PredefinedVar", "src/include/fn_parse.h:PredefinedMacro", "README.md"]}
{"id": "C63", "title": "UDP address parsing", "statement": "For an address d.d.d.d followed by ':' and a decimal port 1..65535 without leading zeros, the device gets exactly that IPv4 address and that port in network byte order.", "quantifier": "all 2^32 addresses and all ports", "why_tests_cant": "2^48 combinations.", "anchors": ["src/include/fn_parse.h:ParseAddres", "src/include/fn_parse.h:ParseAddresIP"]}
{"id": "C64", "title": "End to end: one thread on a sync channel", "statement": "With one thread logging on a sync channel, after each log statement returns every enabled file device whose filter accepts the log has had exactly that line appended, in program order, and no other file changed.", "quantifier": "every configuration and every sequence of log statements", "why_tests_cant": "Histories times configurations.", "anchors": ["src/include/fn_channel.h:PushChannel", "src/include/fn_channel.h:EnterProcChannel", "src/include/fn_channel.h:DispatchLog", "src/include/fn_out_file_device.h:EnterProcOutFileDevice"]}
{"id": "C65", "title": "The sign of a double is printed", "statement": "Streaming a negative non-zero double writes a text that begins with '-', whatever its magnitude, and a non-negative one does not.", "quantifier": "every double value", "why_tests_cant": "2^64 doubles; the failing ones (tiny negatives, -inf) are not in any sample.", "anchors": ["src/include/fn_fmt.h:write_double_unsafe"]}
{"id": "C66", "title": "Loading installs exactly the parsed configuration", "statement": "A successful load of an accepted text replaces the channels, count, hot-update switch, key and names by the parsed ones and keeps all statistics and queues; parsing, loading and starting the text of a configuration within the documented ranges runs exactly this configuration.", "quantifier": "every accepted text, every configuration, every previous logger", "why_tests_cant": "The configuration space is huge; the repository has no test that compares a loaded logger with its file.", "anchors": ["src/include/fn_load.h:InitFromYMAL", "src/include/fn_core.h:ParseAndStartLogger"]}
{"id": "C67", "title": "Screen output", "statement": "A sequence of log statements on a sync channel shows each admitted line exactly once per enabled screen device that accepts it, in program order and then device order, completely, with the colour of its priority from INFO on.", "quantifier": "every configuration, every sequence of statements, every text", "why_tests_cant": "Screen output is not captured by any test, and texts and configurations are unbounded.", "anchors": ["src/include/fn_out_screen_device.h:EnterProcOutScreenDevice", "src/include/fn_channel.h:DispatchLog"]}
{"id": "C68", "title": "UDP output", "statement": "Every line accepted by a UDP device is sent as one datagram with exactly the line as its content to the configured address, or counted as lost, and never both; without a socket the device tries to get one at most every three seconds.", "quantifier": "every sequence of statements, every behaviour of the socket calls", "why_tests_cant": "Failing sockets are not provoked by tests.", "anchors": ["src/include/fn_out_udp_device.h:EnterProcOutUDPDevice", "src/include/fn_file.h:UDPHandler::open"]}
{"id": "C69", "title": "UDP input", "statement": "Datagrams of any size and content that a device with UDP input receives are handled without access outside of the receive buffer, and each is output with exactly its bytes, in the order of arrival.", "quantifier": "every sequence of datagrams", "why_tests_cant": "Needs datagrams of the buffer size and sequences of different lengths.", "anchors": ["src/include/fn_channel.h:EnterProcChannel"]}
{"id": "C70", "title": "The category of a record decides", "statement": "Whether a log statement is admitted and which devices output it depends on the category the record has in the end (set_category in the statement included).", "quantifier": "every configuration and statement", "why_tests_cant": "Interaction of set_category with all filters.", "anchors": ["src/include/fn_stream.h:LogStream::set_category", "src/include/fn_channel.h:BlockInput", "src/include/fn_channel.h:DispatchLog"]}
{"id": "C71", "title": "Default file names are distinct", "statement": "Two file devices without a configured file name never write to, rename or remove a common file, whatever their directories and the times.", "quantifier": "every pair of devices of any channels, every time, every number of backups", "why_tests_cant": "Names depend on time and numbering; collisions need particular numbers.", "anchors": ["src/include/fn_out_file_device.h:MakeFileName", "src/include/fn_out_file_device.h:EnterProcOutFileDevice"]}
{"id": "C72", "title": "Threads on one channel, end to end", "statement": "Any number of threads log statements to one channel in any interleaving, also while it is started and stopped: nothing is undefined, every record output is the complete record of one statement, no device sees a record twice, and on an async channel all devices see the same records in the same order, which agrees with the program order of each thread; after a stop with all statements returned every device has seen all of them.", "quantifier": "every configuration of devices, every number of threads, every schedule and every sequence of statements per thread", "why_tests_cant": "Interleavings of several threads with all configurations and statements cannot be enumerated.", "anchors": ["src/include/fn_channel.h:PushLog", "src/include/fn_channel.h:DispatchLog", "src/include/fn_channel.h:EnterProcChannel", "src/include/fn_stream.h:LogStream"]}
{"id": "C73", "title": "Threads on one sync channel", "statement": "When all log statements of any number of threads on a sync channel have returned, every device has seen the record of every admitted statement exactly once, and all devices in the same order.", "quantifier": "every configuration of devices, every number of threads, every schedule", "why_tests_cant": "The order of the devices depends on a thread being overtaken between two devices.", "anchors": ["src/include/fn_channel.h:PushLog", "src/include/fn_channel.h:DispatchLog", "src/include/fn_channel.h:EnterProcDevice"]}
{"id": "C74", "title": "The queue under the C++ memory model", "statement": "Also when loads of indices and marks return old values, as the memory orders in the code allow, and tests of channel_state_ give arbitrary answers: every line output is the complete line of one log statement, no statement is output twice, an async channel outputs in order of acquisition without gaps, each thread's statements are acquired in program order, and at most BUFFER_LEN - 1 slots are in use.", "quantifier": "every number of threads, every schedule, every choice of allowed values for every load", "why_tests_cant": "Weak memory behaviour depends on the processor and the compiler; x86 machines do not show most of it.", "anchors": ["src/include/fn_channel.h:EnterProcChannel", "src/include/fn_channel.h:HoldChannel", "src/include/fn_channel.h:PushChannel"]}
{"id": "C75", "title": "No data race on records", "statement": "Any two accesses to the text of a record, from InitLogData to the output, are ordered by the acquire and release operations of the queue; a thread that sets a mark knows the last change of that mark.", "quantifier": "every number of threads, every schedule, every choice of allowed values for every load", "why_tests_cant": "A missing order shows as a corrupted line once in billions of statements, on some processors.", "anchors": ["src/include/fn_channel.h:EnterProcChannel", "src/include/fn_channel.h:HoldChannel", "src/include/fn_channel.h:PushChannel"]}
{"id": "C76", "title": "Published when all statements have returned, under the C++ memory model", "statement": "When all log statements have returned and found the channel running, every acquired record is published, so that the worker will output it.", "quantifier": "every number of threads, every schedule, every choice of allowed values for every load", "why_tests_cant": "The failing execution needs two stale loads at the same moment.", "anchors": ["src/include/fn_channel.h:PushChannel"]}
{"id": "C77", "title": "Stop drains, under the C++ memory model", "statement": "When the worker of an async channel leaves its loop after a stop, every published record has been output.", "quantifier": "every schedule, every choice of allowed values for every load", "why_tests_cant": "The failing execution needs a stale load at the moment of the stop.", "anchors": ["src/include/fn_channel.h:EnterProcChannel", "src/include/fn_core.h:StopChannels"]}
{"id": "C78", "title": "Bytes per priority", "statement": "When no log statement is under way, the counter of each priority of a channel is the total length of the lines logged to it with that priority.", "quantifier": "every number of threads, every schedule, every priority, sync and async", "why_tests_cant": "The record is read again after it was marked ready; a wrong count needs a thread held up for a lap of the queue at one line.", "anchors": ["src/include/fn_channel.h:PushChannel", "src/include/fn_data.h:CHANNEL_LOG_PRIORITY"]}
{"id": "C79", "title": "Longest queue and longest delay", "statement": "The queue length computed after each line is the number of lines published and not yet output before that line; the two maxima are the largest values computed, and never decrease.", "quantifier": "every number of threads, every schedule, every sequence of times", "why_tests_cant": "Updates that overwrite each other need two threads between load and store at the same time.", "anchors": ["src/include/fn_channel.h:EnterProcChannel"]}
{"id": "C80", "title": "create_dir makes the directories of a path", "statement": "If create_dir returns true, the text in front of every slash of the path names a directory. Nothing that existed is changed; alone, it makes nothing but directories of the path. It returns false only if a directory is refused or its place is taken.", "quantifier": "every path, every tree of files and directories, every answer of mkdir, every directory added by other processes meanwhile", "why_tests_cant": "Paths with dots, repeated slashes, missing and existing parents, and other processes at every moment, are unbounded combinations.", "anchors": ["src/include/fn_file.h:FileHandler::create_dir", "src/include/fn_file.h:FileHandler::is_dir"]}
{"id": "C81", "title": "The directory of a log file exists when the file is opened", "statement": "After OpenFileDevice has prepared the path, the directory that the complete file name lies in exists, whatever path and file are configured, if all directories can be made.", "quantifier": "every configured path and file name, every tree", "why_tests_cant": "The combination of path and file name is configuration; tests use one or two.", "anchors": ["src/include/fn_out_file_device.h:OpenFileDevice"]}
{"id": "C82", "title": "Whole files and the name of the process", "statement": "read_content returns all bytes of a file of any length. process_name returns the last component of the first argument of the program; it never contains a slash.", "quantifier": "every content, every buffer size, every command line", "why_tests_cant": "Lengths at multiples of the buffer and long program paths are the interesting cases.", "anchors": ["src/include/fn_file.h:FileHandler::read_content", "src/include/fn_file.h:FileHandler::read_line", "src/include/fn_file.h:FileHandler::process_name"]}
{"id": "C83", "title": "The default logger", "statement": "FastStartDefaultLogger starts a logger with an async and a sync channel; every line goes to the first file of its channel, errors (info) and above to the second, info and above to the screen. FastStartDebugLogger lets the files take everything but the error file, and the screens everything from debug on; nothing else differs.", "quantifier": "every priority, category and identifier; every content of uninitialised memory", "why_tests_cant": "Uninitialised memory has the same content in most test runs.", "anchors": ["src/include/fn_macro.h:FastStartDefaultLogger", "src/include/fn_macro.h:FastStartDebugLogger", "src/include/fn_core.h:BatchSetDeviceConfig"]}
{"id": "C84", "title": "Filtering during a hot update", "statement": "A log that is filtered while a hot update of its channel is under way is treated as by the old or by the new configuration; it never meets undefined behaviour that neither of them has.", "quantifier": "every old and new configuration, every log, every order in which the assignments become visible to the thread that logs", "why_tests_cant": "The window is a few instructions every five seconds at most.", "anchors": ["src/include/fn_load.h:HotUpdateLogger", "src/include/fn_channel.h:BlockInput", "src/include/fn_channel.h:DispatchLog"]}
{"id": "C85", "title": "The logging macros", "statement": "There is a macro of every style for each of the seven priorities, in a form with channel, category and identify and a form without. A macro logs with the priority of its name, to the given channel (or channel 0) with the given category and identify (or 0), and its line begins with date and time, priority, file, line and function. Streams, packs and chains of the same values log the same; a printf-style macro logs what streaming the formatted text would log.", "quantifier": "every macro, channel, category, identify, place, time, every list of values, every text", "why_tests_cant": "Four styles, seven priorities and two forms for every configuration; texts around the size of a record.", "anchors": ["src/include/fn_macro.h:LogTemplatePack", "src/include/fn_macro.h:LOG_FORMAT", "src/include/fn_macro.h:LOG_STREAM_ORIGIN"]}
{"id": "C86", "title": "Channels of a logger are independent", "statement": "Threads log to several channels of one logger in any interleaving, also while channels are started and stopped. Nothing is undefined, and each channel is at every moment in the state it would have if only its own events had happened: ring, records, order, devices with statistics, and files. Screen and network show the output of the channels interleaved; no other file changes.", "quantifier": "every number of channels and threads, every configuration of devices, every schedule", "why_tests_cant": "Schedules of several threads on several channels cannot be enumerated; the shared state (date caches, file system, screen, network) is touched by all of them.", "anchors": ["src/include/fn_channel.h:PushLog", "src/include/fn_channel.h:EnterProcChannel", "src/include/fn_channel.h:DispatchLog", "src/include/fn_data.h:Logger", "src/include/fn_fmt.h:write_date_unsafe"]}
{"id": "C87", "title": "A hook under threads", "statement": "Any number of threads log to a channel with a registered hook. Nothing is undefined. Each thread calls the hook at most once for each of its admitted statements, in program order, and only with records that the device of the hook accepts, with their full text (cut to leave room for a terminating zero); never for a refused statement. Before any device is given a record that the device of the hook accepts, the hook has been given it. If the channel was not stopped, exactly one call is made for each such statement. The hook changes nothing but the statistics of its device, which count the calls, their bytes and their bytes by priority.", "quantifier": "every number of threads, every configuration, every schedule of statements, steps, start and stop", "why_tests_cant": "The hook is called without a lock while other threads write records and a worker empties the ring; schedules cannot be enumerated.", "anchors": ["src/include/fn_stream.h:~LogStream", "src/include/fn_out_virtual_device.h:EnterProcOutVirtualDevice", "src/include/fn_channel.h:PushLog"]}
{"id": "C88", "title": "The functions of fn_log.h", "statement": "EnableAllFileDevice, EnableAllScreenDevice, EnableAllUDPDevice, SetAllFilePriority, SetAllScreenPriority, SetAllUDPPriority, SetAllChannelPriority, the category setters, SetAllFileLimitSize and SetAllFileRollbackCount change the named field of every device of the named type (of every channel) and nothing else; a device switched off takes no record, one switched on takes what its filters let pass, a priority is a lower bound and a category range with a positive count a bound on both sides.", "quantifier": "every logger with a loaded configuration, any number of channels and devices, all argument values", "why_tests_cant": "the tests use a few calls on one configuration; that no other field, device or channel changes is a statement about all of them", "anchors": ["src/include/fn_log.h:24-47", "src/include/fn_core.h:346-369"]}
{"id": "C89", "title": "A log statement that does not go on", "statement": "While one log statement is suspended (its operand waits for another thread, or itself logs) other statements of the channel, inner ones too, get a slot and return.", "quantifier": "every schedule, any number of threads and of nested statements, any queue length and text", "why_tests_cant": "needs a queue full behind one suspended statement: 1000 statements with the default size, or deep nesting", "anchors": ["src/include/fn_channel.h:429-471", "src/include/fn_channel.h:477-525", "src/include/fn_stream.h:96-103"]}
{"id": "C90", "title": "Threads on one channel, end to end, under the C++ memory model", "statement": "Any number of threads execute log statements on one channel, with any values for their loads that acquire and release allow and any answers to the unsynchronised tests of the states. Nothing is undefined, no two conflicting accesses to a record are unordered, every record is complete, unmixed and in the program order of its thread, each device sees each record at most once (on an async channel the first ones, in order), and the files, statistics, screen lines and datagrams are those of the records seen; when the indices have met, every device has seen every record exactly once.", "quantifier": "every number of threads, every configuration, every schedule, every choice of the values loaded", "why_tests_cant": "Tests on x86 never show the reorderings that the memory model permits, let alone all of them.", "anchors": ["src/include/fn_channel.h:HoldChannel", "src/include/fn_channel.h:PushLog", "src/include/fn_channel.h:EnterProcChannel", "src/include/fn_channel.h:DispatchLog", "src/include/fn_stream.h:82-198"]}
{"id": "C91", "title": "Lines reach the files in order and completely", "statement": "With the stream buffers of the file devices: at every moment the files contain what the channel without buffering would have written, except for the last bytes of the open file of each device, which are in its buffer. No thread has more than FN_LOG_FORCE_FLUSH_QUE + 1 records in a buffer, none after its log statement has returned, and the thread of an async channel none when it sleeps or has ended; then the files are complete.", "quantifier": "all channels, devices, programs, interleavings, and behaviours of the C library with its buffers", "why_tests_cant": "The order and number of flushes depends on the interleaving; tests see the buffers only after the program has ended and all files were closed.", "anchors": ["src/include/fn_channel.h:104-201", "src/include/fn_file.h:179-195", "src/include/fn_out_file_device.h:192-339"]}
{"id": "C92", "title": "No stream is flushed after it was closed", "statement": "Whenever a thread calls fflush on the stream of a file device, this stream is open.", "quantifier": "all channels, devices, programs and interleavings", "why_tests_cant": "The window is between reading file_ and fflush, during which another thread must rotate the file.", "anchors": ["src/include/fn_channel.h:175-181", "src/include/fn_channel.h:194-200", "src/include/fn_file.h:190-195", "src/include/fn_out_file_device.h:236-245"]}
{"id": "C93", "title": "Lines received by UDP reach the file", "statement": "A line that a file device has received by UDP is in the file at the latest when the thread of the channel sleeps.", "quantifier": "all histories of rounds with records and datagrams", "why_tests_cant": "Needs an input device, and a look at the file while the logger is running idle.", "anchors": ["src/include/fn_channel.h:104-264"]}
{"id": "C94", "title": "Every statistic has its own counter", "statement": "No two statistics of a channel or of a device share a counter, for any priority; all are inside of their arrays; adding to one changes this one by the amount and no other.", "quantifier": "all statistics, contents of the arrays and amounts", "why_tests_cant": "A table of enumerators is not exercised by a test of behaviour; an overlap shows in numbers only.", "anchors": ["src/include/fn_data.h:185-200", "src/include/fn_data.h:251-270", "src/include/fn_data.h:455-485"]}
{"id": "C95", "title": "What StopLogger leaves behind", "statement": "When StopLogger has returned, every file is complete and closed, the channel is not running, and nothing is written any more, whatever the other threads still do.", "quantifier": "all channels, devices, programs and interleavings", "why_tests_cant": "The window is a log statement in progress in another thread while StopLogger returns.", "anchors": ["src/include/fn_core.h:170-208", "src/include/fn_core.h:76-108", "src/include/fn_channel.h:187-190"]}
{"id": "C96", "title": "A new logger starts with empty queues", "statement": "If there is no segment of an earlier process, LoadSharedMemory provides no channels, zero statistics and, for every channel, the empty queue from which the other theorems start; a new segment carries its identifier and size.", "quantifier": "all environments and loggers, every content of the new segment but for its slots", "why_tests_cant": "Needs System V shared memory that does not exist yet; stale content of the memory is up to the operating system.", "anchors": ["src/include/fn_load.h:23-36", "src/include/fn_load.h:38-141"]}
{"id": "C97", "title": "From the configuration text to the closed files", "statement": "A configuration within the documented ranges is written as a text, parsed and started; threads make log statements on an async channel of it; the logger is stopped. Then the closed files of each file device of this channel hold, byte for byte, what the device writes for the records of the admitted statements one after the other, in one order that agrees with the program of each thread, each exactly once.", "quantifier": "all expressible configurations and layouts, file systems, programs, schedules, behaviours of the stream buffers", "why_tests_cant": "Combines parser, loader, filters, formatting, queue, rotation, buffering and shutdown; a test sees one configuration and one interleaving.", "anchors": ["src/include/fn_load.h:161-245", "src/include/fn_core.h:30-260", "src/include/fn_channel.h:23-205", "src/include/fn_channel.h:274-526"]}
{"id": "C98", "title": "The destructor stops the logger and gives back its memory", "statement": "After any sequence of calls the destructor of Logger ends, the logger is stopped, and exactly the memory that LoadSharedMemory has taken is given back: memory from new is deleted, an attached segment is detached and removed, no other segment is removed.", "quantifier": "all sequences of calls, texts, environments, answers of the operating system", "why_tests_cant": "Needs failing thread creation, changing keys and foreign segments; a leak or a removed foreign segment is not visible in the process.", "anchors": ["src/include/fn_core.h:411-422", "src/include/fn_load.h:142-158", "src/include/fn_load.h:218-221"]}
{"id": "C99", "title": "Numbers in the configuration are read as written", "statement": "A number behind shm_key, written in decimal, hexadecimal (either case) or octal, with or without a sign, is read as this number, limited to the range of long long.", "quantifier": "all numbers and spellings", "why_tests_cant": "Infinitely many texts; the conversions have limits that examples do not meet.", "anchors": ["src/include/fn_parse.h:507-523", "src/include/fn_parse.h:1473-1475"]}
{"id": "C100", "title": "Every log statement returns and is written in the end", "statement": "In every execution without end in which no active thread is stopped by the operating system for ever and nobody stops the channel, every record that got a slot is written and stays written, every slot becomes free again, and every log statement gets its slot and returns.", "quantifier": "all ring sizes of at least 2, numbers of threads, texts, infinite fair schedules with timely compare-and-swaps, both modes", "why_tests_cant": "A deadlock, a lost wake-up or a livelock shows only for particular infinite schedules; a test cannot tell late from never.", "anchors": ["src/include/fn_channel.h:430-475", "src/include/fn_channel.h:477-525", "src/include/fn_channel.h:99-270"]}
{"id": "C101", "title": "StopLogger returns and nobody stays behind", "statement": "When a running channel is stopped, whatever the threads are doing, StopLogger returns, every log statement that is in progress returns, and the lines that were published before the stop are written.", "quantifier": "all ring sizes, numbers of threads, texts, infinite fair schedules with timely compare-and-swaps", "why_tests_cant": "A hang at the end of a process needs a stop between two particular steps of other threads; a test cannot tell late from never.", "anchors": ["src/include/fn_core.h:76-108", "src/include/fn_channel.h:187-190", "src/include/fn_channel.h:204-270", "src/include/fn_channel.h:430-475", "src/include/fn_channel.h:489-492"]}
{"id": "C102", "title": "Closed log files survive a power failure", "statement": "When a file has been closed, by rotation or by StopLogger, all its lines are on the disk; before that a power failure leaves the first part of each file.", "quantifier": "all configurations and schedules of an async channel, or of a sync channel without rotation; all behaviours of the buffer of the C library", "why_tests_cant": "A test sees the files as the operating system shows them; what fsync has not covered is visible only after a power failure.", "anchors": ["src/include/fn_file.h:146-162", "src/include/fn_out_file_device.h:237-249", "src/include/fn_core.h:191-199"]}
{"id": "C103", "title": "Filter numbers mean what they say", "statement": "A number behind category, category_extend, identify or identify_extend is the same number for a channel and for a device: the one that is written, limited to the range of long long. The number of a channel or device is the one that is written.", "quantifier": "every integer, with any sign and leading zeros, and whatever follows it", "why_tests_cant": "Filters with numbers of more than 32 bits are rare in tests; each conversion works on every small number.", "anchors": ["src/include/fn_parse.h:1188-1209", "src/include/fn_parse.h:1327-1348", "src/include/fn_parse.h:1365", "src/include/fn_parse.h:1478"]}
{"id": "C104", "title": "StopLogger ends the threads it waits for", "statement": "A call of StopLogger that has found the logger running returns, if the operating system is fair and the queues get empty.", "quantifier": "every interleaving of any number of threads that start, stop, load and hot-update a logger with any number of channels", "why_tests_cant": "The window is between one check and the lock behind it, while the configuration file is being read.", "anchors": ["src/include/fn_core.h:76-107", "src/include/fn_core.h:170-209", "src/include/fn_load.h:277-330", "src/include/fn_channel.h:257"]}
{"id": "C105", "title": "Life cycle calls from several threads", "statement": "StartLogger, StopLogger, InitFromYMAL, ParseAndStartLogger and LoadAndStartLogger may be called from several threads: what they bring about is a sequence of sessions (load, start, stop); a call that returns 0 has brought it about; no thread is created for a channel that has one, and no thread is left when the logger is stopped.", "quantifier": "every interleaving of the steps of any number of threads and of the threads of any number of channels", "why_tests_cant": "Interleavings of several calls with the threads of the channels.", "anchors": ["src/include/fn_core.h:30-265", "src/include/fn_load.h:161-245", "src/include/fn_load.h:277-381", "src/include/fn_channel.h:187-190", "src/include/fn_channel.h:257-269"]}
{"id": "C106", "title": "What is logged gets to the files", "statement": "While the channel runs, every record that was given a slot is at some later time in its files, without a stop, an exit or a further log statement; when no more statements are made, all of them return and the files get exactly their output.", "quantifier": "every infinite schedule in which every active thread makes further steps, any number of threads, any buffering of the C library, any number of devices", "why_tests_cant": "A statement about infinite schedules; a test sees a finite part of one schedule.", "anchors": ["src/include/fn_channel.h:99-270", "src/include/fn_channel.h:430-525", "src/include/fn_file.h:179-195"]}
{"id": "C107", "title": "No data race on the variables of the life cycle", "statement": "logger_state_, channel_state_, hot_update_, shm_ and async_threads, which are plain variables, are never accessed by two threads at the same time, one of them writing.", "quantifier": "every interleaving of the steps of any number of threads that start, stop and load the logger, and of the threads of any number of channels", "why_tests_cant": "A data race is undefined behaviour without a visible effect in most runs.", "anchors": ["src/include/fn_core.h:30-265", "src/include/fn_load.h:161-245", "src/include/fn_load.h:277-381", "src/include/fn_channel.h:187-190", "src/include/fn_channel.h:257-269", "src/include/fn_data.h:318-323"]}
{"id": "C108", "title": "Sync channels, one statement at a time", "statement": "If no two log statements on a sync channel overlap in time (\"only support single thread\"), every statement returns, all admitted statements are in the files, on the screen and sent, completely and in their order, also when files are rotated, and StopLogger leaves the files complete and closed.", "quantifier": "every program of log statements of any number of threads, every interleaving without overlapping statements, every device table, clock and answer of the operating system", "why_tests_cant": "Needs all programs and all rotations.", "anchors": ["src/include/fn_channel.h:99-270", "src/include/fn_channel.h:325-525", "src/include/fn_file.h:146-195", "src/include/fn_out_file_device.h:192-339", "src/include/fn_core.h:170-209"]}
{"id": "C109", "title": "File devices with files of their own, on a real file system", "statement": "On a file system with inodes, where an open file keeps its inode whatever happens to its name, used by several devices, several processes and other programs, a file device whose files (log file and backups) nobody else touches leaves exactly the files and the statistics that it leaves when an open file is identified with its name.", "quantifier": "every number of devices with different files, every interleaving of their logs, every rename, remove and create of other files by other programs, every configuration, every starting disk", "why_tests_cant": "Needs all interleavings of devices and other programs; tests look at one device on a quiet disk.", "anchors": ["src/include/fn_out_file_device.h:192-339", "src/include/fn_file.h:126-188", "src/include/fn_file.h:370-392"]}
{"id": "C110", "title": "Files shared by devices, processes or other programs", "statement": "Every line a file device takes (and counts as written) is appended whole to one file, in order, and stays in the log file or one of its backups for as many rotations as backups are configured, also when several devices or processes share the file, another program renames or removes it, or a rename fails.", "quantifier": "every number of devices and processes, every interleaving of their logs with renames, removes and creates by others, every answer of rename and remove", "why_tests_cant": "Needs all interleavings of several writers and all failures of the operating system.", "anchors": ["src/include/fn_out_file_device.h:192-339", "src/include/fn_file.h:126-188", "src/include/fn_file.h:370-392"]}
{"id": "C111", "title": "Stop and start again", "statement": "A logger that is stopped and started again, any number of times, works in each session as in the first: no step is undefined, each admitted record of each session is written once, in order, to the files as they were left by the session before, the files are closed between the sessions, nothing of an earlier session is written again, and no other file is touched.", "quantifier": "every number of sessions, every program and every interleaving of the threads in each session, every answer of the operating system, every buffering of the C library, every state of the date caches and slots that earlier sessions have left", "why_tests_cant": "Needs all interleavings and all sequences of sessions; stale slots and caches only show for particular histories.", "anchors": ["src/include/fn_core.h:30-209", "src/include/fn_channel.h:99-270", "src/include/fn_channel.h:429-525", "src/include/fn_out_file_device.h:192-339"]}
{"id": "C112", "title": "Log statements while the logger is started, stopped or destroyed", "statement": "A log statement takes part in no data race on the variables of the life cycle and uses no released memory, whatever calls of the life cycle, and the destructor, are made by other threads meanwhile.", "quantifier": "every number of threads, every interleaving of statements, calls of the life cycle, the threads of the channels and the destructor", "why_tests_cant": "The races need particular interleavings of a few instructions, and their effects depend on the compiler and the machine; use of released memory usually goes unnoticed.", "anchors": ["src/include/fn_channel.h:99-270", "src/include/fn_channel.h:329-526", "src/include/fn_core.h:30-209", "src/include/fn_core.h:411-422", "src/include/fn_load.h:142-158"]}
{"id": "C113", "title": "Log statements made by operands and hooks", "statement": "A log statement whose operands or whose hook (SetVirtualDevice) log themselves, or forward the record with TransmitChannel, returns, and the records of outer and inner statements are each written exactly once on their channels.", "quantifier": "every number of channels and threads, every depth of nesting, every fair endless interleaving in which finitely many statements are made", "why_tests_cant": "The inner statement waits for a slot while the outer one keeps one; that two threads wait for each other needs full queues and a particular interleaving. The repository's test forwards in one direction from one thread.", "anchors": ["src/include/fn_stream.h:82-200", "src/include/fn_channel.h:430-526", "src/include/fn_channel.h:528-562", "src/include/fn_out_virtual_device.h:25-75", "tests/test_trans_log.cpp:48-52"]}
{"id": "C114", "title": "StopLogger while log statements are in progress", "statement": "Log statements that are in progress while the logger is started, stopped, or loaded and started again leave the life cycle as it is: calls bring about sessions, no thread is created for a channel that has one, a stopped logger has no threads, async channels of a running logger run, and StopLogger returns.", "quantifier": "every number of threads that call, log or destroy, every interleaving, every sequence of configurations", "why_tests_cant": "A statement on a sync channel that is delayed between two instructions of EnterProcChannel over a stop and a start with another configuration acts on a channel of another session; no test stops a thread there.", "anchors": ["src/include/fn_core.h:30-107", "src/include/fn_core.h:109-148", "src/include/fn_core.h:170-209", "src/include/fn_channel.h:185-190", "src/include/fn_channel.h:263-268", "src/include/fn_load.h:221-236"]}
{"id": "C115", "title": "Two processes with the same shm_key", "statement": "Two processes (or loggers) whose configurations name the same shm_key do not disturb each other: when one of them loads, starts or stops, the other one keeps its threads, its statements are let in, StopLogger returns, and its lines are written once and as they are.", "quantifier": "every interleaving of the calls, statements and threads of both processes", "why_tests_cant": "Needs two processes attached to one segment and a load in one at a given point of the other; a test suite runs one process, and LoadSharedMemory is tested after a crash, when nobody is attached.", "anchors": ["src/include/fn_load.h:46-86", "src/include/fn_load.h:96-136", "src/include/fn_load.h:198-244", "src/include/fn_channel.h:185-190", "src/include/fn_channel.h:263-268", "src/include/fn_core.h:76-107"]}
{"id": "C116", "title": "Percentages and points in time are printed as given", "statement": "LogPercent(x) prints 100 times x, cut to four decimals, and a percent sign; LogTimestamp(ms) prints the local date and time of the point ms milliseconds after 1970, LogTimestamp(s, p) that of second s with p milliseconds.", "quantifier": "every double, every long long, every int, every state of the date cache", "why_tests_cant": "2^64 arguments each; the conversion to float and the division of negative numbers are wrong for some of them only.", "anchors": ["src/include/fn_stream.h:27-66", "src/include/fn_stream.h:433-458"]}
{"id": "C117", "title": "A LogStream that is moved logs once", "statement": "Stream objects may be moved: a statement gets the operands of the object that holds it at the time, is pushed exactly once with the index it was given when that object is destroyed, and objects that were moved from or refused have no effect and follow no null pointer.", "quantifier": "every program over any number of stream objects", "why_tests_cant": "All orders of constructions, moves, uses and destructions; compilers elide most moves, so tests seldom run the move constructor.", "anchors": ["src/include/fn_stream.h:75-111", "src/include/fn_stream.h:176-205", "src/include/fn_macro.h:207-222"]}
{"id": "C118", "title": "A refused configuration is reported at its line", "statement": "When the parser refuses a text, the line number and the excerpt in the message are those of the line that is the reason, line numbers count the lines of the file whatever its line ends are, and the name printed for the error says what it is.", "quantifier": "every text without NUL and byte order mark, every error", "why_tests_cant": "Each error path keeps the line number and the place by hand; a wrong number shows only with a wrong file, and tests of the parser check verdicts, not messages.", "anchors": ["src/include/fn_parse.h:39-119", "src/include/fn_parse.h:934-1134", "src/include/fn_parse.h:1136-1290", "src/include/fn_parse.h:1402-1512", "src/include/fn_load.h:169-196"]}
{"id": "C119", "title": "Several writer threads on one queue", "statement": "When several processes with the same shm_key each run a writer thread of an async channel, every line is output at most once, by one of them, unaltered; each of them outputs its lines in the order of the queue, and so do all of them together; no slot is filled or output by two threads at the same time; when one of the processes stops the channel its writer thread ends, and then every line has been output exactly once.", "quantifier": "every number of processes, which may come at any time when the queue is empty, log statements of any threads, ring sizes, texts, and interleavings of single memory accesses (no compare-and-swap a full lap late)", "why_tests_cant": "The interleavings of two writers between the loads and the compare-and-swaps of four indices are unbounded; tests run one process.", "anchors": ["src/include/fn_channel.h:99-190", "src/include/fn_channel.h:263-270", "src/include/fn_core.h:30-107", "src/include/fn_load.h:96-136", "src/include/fn_load.h:227-236"]}
{"id": "C120", "title": "The UDP input of a device, with its socket", "statement": "Every datagram the socket of an enabled UDP input accepts is output once, in order, or is still waiting in the socket; a disabled device has no socket and receives nothing; there is at most one socket, bound to the configured address; it is opened at most every three seconds; a round outputs the waiting datagrams up to 1000, so that rounds output all.", "quantifier": "every schedule of threads inside the input (one after the other, and overlapping as on a sync channel), arrivals, failures of socket and bind, switches of the device, changes of its address, clock readings, and record sizes of at least 2", "why_tests_cant": "Log statements on a sync channel race for one handle and one buffer without a lock; the interleavings with arrivals and reconfigurations are unbounded.", "anchors": ["src/include/fn_channel.h:202-255", "src/include/fn_channel.h:520", "src/include/fn_file.h:421-541", "src/include/fn_out_udp_device.h:18-40", "src/include/fn_load.h:352-377"]}
{"id": "C121", "title": "Forwarding of records to another channel by a hook", "statement": "When the hook of the virtual devices is TransmitChannel to another channel, no statement is undefined or changed by it: every source channel outputs its records as without the hook, and the target outputs exactly a copy of each record that the virtual device of its source accepts and that the target admits, with the same line and fields, once, in program order over all sources.", "quantifier": "all sequences of log statements of one thread on any number of sync channels with any filters and devices, all texts (also cut ones), all answers of the operating system", "why_tests_cant": "tests/test_trans_log.cpp compares one count for one configuration; texts, order, filters and the sources are not looked at.", "anchors": ["src/include/fn_out_virtual_device.h:34-69", "src/include/fn_channel.h:528-560", "src/include/fn_stream.h:174-198", "tests/test_trans_log.cpp:48-52"]}
{"id": "C122", "title": "The process dies: what gets to the files", "statement": "When the process dies between any two steps of its threads and another one loads the same shared memory, and so on any number of times, no step of the new process is undefined; it finds in the queue what was published and not released and, completed by the marker, what was being written; it writes these and then its own records to the files, each once and in order; every line of a statement that returned is in the end in the files once.", "quantifier": "every number of crashes, every crash point, every interleaving of any number of threads, every answer of the operating system and buffering of the C library in each process, async channels", "why_tests_cant": "All crash points of all interleavings, together with what is in the buffers of the streams at that point; a test kills a process at a few places.", "anchors": ["src/include/fn_load.h:88-136", "src/include/fn_load.h:215-232", "src/include/fn_channel.h:99-200", "src/include/fn_channel.h:276-300", "src/include/fn_channel.h:430-525", "src/include/fn_file.h:179-195"]}
{"id": "C123", "title": "The channels follow the configuration file", "statement": "With hot_update on, when the configuration file has got a new version, every channel has, five seconds later at its next check, the filters and settings of that version, and stays so; statements and records are then treated as if the logger had been started with it.", "quantifier": "every sequence of versions of the file and of checks by all channels, every clock, every text", "why_tests_cant": "Which versions a channel has seen in between, with which time stamps and in which order relative to the other channels, matters; a test has one or two versions.", "anchors": ["src/include/fn_load.h:277-383", "src/include/fn_channel.h:257", "src/include/fn_parse.h:1363-1393", "src/include/fn_stream.h:178-192"]}
{"id": "C124", "title": "Killed while loading the shared memory", "statement": "When processes are killed inside LoadSharedMemory, at any store, any number of times, the next process that loads the same shared memory finds what it would have found without them: the same indices, the same completed texts, all other slots as they were; a segment whose creation was interrupted can be used or is made anew.", "quantifier": "every number of kills, every store at which they happen, every segment with sane indices and lengths, every number of channels and slots", "why_tests_cant": "A kill inside a function that takes microseconds; crash tests kill the process while it logs, not while it recovers from the crash before.", "anchors": ["src/include/fn_load.h:23-36", "src/include/fn_load.h:38-141"]}
{"id": "C125", "title": "A sync channel after a crash", "statement": "After a crash at any moment, the next process can log on a sync channel: every statement returns; what the queue held at the crash is output with the first statement, before its line, in order: the published lines unchanged, the unpublished ones completed by the marker; and none of them is a line that had been output before the crash.", "quantifier": "every number of threads before the crash, every schedule and moment of the crash, every BUFFER_LEN above 1, every sequence of statements after it", "why_tests_cant": "The state depends on where other threads were when the process was killed; a test that kills a process while one thread logs never finds the queue with more than one record.", "anchors": ["src/include/fn_channel.h:99-183", "src/include/fn_channel.h:430-525", "src/include/fn_core.h:39-41", "src/include/fn_core.h:85-87", "src/include/fn_core.h:150-168", "src/include/fn_load.h:93-134"]}
{"id": "C126", "title": "The output of a UDP device by several threads", "statement": "When several threads log on a sync channel with a UDP device, every line ends in exactly one way that the statistics count; the datagrams of each thread are its lines, in order; every datagram goes to the address configured; no line is lost for want of a socket that could be had; the device owns one socket at most, tries to open one at most every three seconds, and owns none after StopLogger.", "quantifier": "every number of threads, every interleaving of their accesses, of changes of the address and of StopLogger, every answer of socket and sendto, every clock", "why_tests_cant": "The lock of the channel is not taken by HotUpdateLogger and StopLogger; the wrong orders need them within a few instructions.", "anchors": ["src/include/fn_out_udp_device.h:19-45", "src/include/fn_file.h:421-528", "src/include/fn_channel.h:23-50", "src/include/fn_channel.h:520", "src/include/fn_core.h:200-206"]}
{"id": "C127", "title": "A stream is used while it is open", "statement": "A file device calls fwrite, fflush, fsync, fstat and fclose only on a stream that is open, closes every stream once, and has exactly the stream its file_ points to: while records are output, files rotated, and devices flushed by several threads, and when StopLogger closes the files.", "quantifier": "every number of threads, every interleaving of their accesses to file_, every answer of fopen, fstat and fwrite, every point at which the file is rotated or StopLogger called", "why_tests_cant": "Between the test of file_ and the call that uses it there are a few instructions; a test does not stop a thread there.", "anchors": ["src/include/fn_file.h:122-200", "src/include/fn_out_file_device.h:192-340", "src/include/fn_channel.h:23-50", "src/include/fn_core.h:193-199"]}
{"id": "C128", "title": "A binary dump of any length", "statement": "write_binary(dst, len) reads exactly the bytes dst[0] to dst[len - 1], whatever len is, computes no position out of range, and prints the rows of these bytes; a length that is not positive reads nothing.", "quantifier": "every int length, every address and content of the memory, every part of it that cannot be read", "why_tests_cant": "An array of 2 GB in a log statement is not a test case, and a read behind the array or an overflow shows no effect there.", "anchors": ["src/include/fn_stream.h:268-312"]}
{"id": "C129", "title": "UDP addresses with a host name, and all ports", "statement": "udp_addr: name:port gives the device the address the resolver has for the name, and the port in network byte order, whatever other lines the device has; a name without an address, a missing address or port, and a port above 65535 are refused.", "quantifier": "every name (a word that is not a number with dots), every answer of the resolver, every port below 2^31, every state of the device", "why_tests_cant": "A test resolves localhost on one machine, and writes the lines in one order.", "anchors": ["src/include/fn_parse.h:588-698", "src/include/fn_parse.h:1254-1283"]}
