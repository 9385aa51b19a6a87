{"claims": [
  {"property": "C01", "status": "partial", "theorems": ["SD.C01_sequential_unbounded_partial", "SD.C01_sequential_blank", "SD.C01_sequential_bounded", "SD.C01_sequential_violated"], "note": "exact for all storages; violated only if an unseekable source ends before its declared length with memory storage (never-received zeros are returned)"},
  {"property": "C02", "status": "proved", "theorems": ["SD.C02_recorded_range_does_not_wait", "SD.C02_unblocked_read_exact"], "note": "every history, forward and backward seeks, any schedule"},
  {"property": "C03", "status": "partial", "theorems": ["SD.C03_reads_after_seeks_violated", "SD.C41_chunks_stored_violated", "SD.C03_forward_bounded_violated", "SD.C03_reads_after_seeks_partial", "SD.C03_reads_after_seeks_bounded_partial", "SD.C03_forward_bounded_unknown_length_partial", "SD.C03_forward_bounded_known_length_partial"], "note": "violated by a backward seek racing with a chunk on a seekable source, by (C41) a forward seek with bounded storage and left-over prefetch bytes, and by an early end of the connection after a forward seek with bounded storage; holds with storage that keeps everything for seeks forward to anywhere and back over bytes that were read or are downloaded, for forward seeks on bounded storage (if no seek or reconnect meets left-over bytes and, with a declared length, transports end where they should), and for arbitrary seeks on unseekable sources"},
  {"property": "C04", "status": "proved", "theorems": ["SD.C33_complete_means_stored", "SD.C04_finished_means_stored", "SD.C04_complete_covers", "SD.C04_finished_covers", "SD.C04_after_completion"], "note": "storages that keep everything; every history"},
  {"property": "C05", "status": "proved", "theorems": ["SD.C05_seek_returns_target", "SD.C05_next_read_starts_there"], "note": "every storage, every history; the seek may also fail"},
  {"property": "C06", "status": "partial", "theorems": ["SD.C06_before_start_violated", "SD.C06_before_start_partial"], "note": "violated: the target wraps and is clamped to the end; rejected only if the storage has a capacity that the wrapped target exceeds"},
  {"property": "C07", "status": "proved", "theorems": ["SD.C07_from_end_unknown_length"], "note": "if the download has failed the error is that failure"},
  {"property": "C08", "status": "proved", "theorems": ["SD.C08_oversized_read_rejected", "SD.C08_fitting_read_accepted"], "note": ""},
  {"property": "C09", "status": "proved", "theorems": ["SD.C09_far_seek_rejected", "SD.C09_near_seek_accepted"], "note": "for positions, targets and lengths below 2^63 (the code computes in i64)"},
  {"property": "C10", "status": "proved", "theorems": ["SD.C10_failure_is_permanent", "SD.C10_failure_is_recorded"], "note": ""},
  {"property": "C11", "status": "proved", "theorems": ["SD.C11_no_call_blocks", "SD.C11_calls_undisturbed", "SD.C11_released_call_reports_failure"], "note": "for an on_finish that does not fail a completed download; a task that panics is C39"},
  {"property": "C12", "status": "proved", "theorems": ["SD.C12_released_read_has_data", "SD.C12_released_seek_has_data"], "note": "stated on the sequence of protocol events of the same call"},
  {"property": "C13", "status": "proved", "theorems": ["SD.C13_short_reads_unbounded", "SD.C13_short_reads_bounded", "SD.C13_short_reads_known_length", "SD.C13_short_reads_known_length_bounded", "SD.C13_short_reads_unknown_length", "SD.C13_short_reads_unknown_length_bounded", "SD.C13_short_reads_any_transport", "SD.C13_short_reads_any_server"], "note": "with a declared length a short read has always reached it, and without one it has reached the end of the resource if the transport ends only there; sources that cannot seek are assumed to deliver their declared length (see C01). For consumers that do not seek the property itself holds for every transport and every HTTP server, whatever they deliver"},
  {"property": "C14", "status": "proved", "theorems": ["SD.C14_read_wakes_task", "SD.C14_paused_means_full", "SD.C14_unbounded_never_pauses"], "note": "every history for the first and the last; the second without seeks"},
  {"property": "C15", "status": "partial", "theorems": ["SD.C15_no_mutual_wait_bounded", "SD.C15_no_mutual_wait_adaptive", "SD.C15_no_mutual_wait_unbounded", "SD.C73_no_mutual_wait_violated", "SD.C73_no_mutual_wait_unbounded_partial"], "note": "every history, including seeks, if stores are visible at once; with bounded storage on a processor that delays stores (x86) it is violated, because the requested position is stored with relaxed ordering"},
  {"property": "C16", "status": "partial", "theorems": ["SD.C16_no_mutual_wait_violated", "SD.C16_no_mutual_wait_unbounded_partial"], "note": "violated: a seek while the writer is paused on full storage never wakes it; holds with storage that keeps everything"},
  {"property": "C17", "status": "proved", "theorems": ["SD.C17_cancelled_is_not_success", "SD.C17_cancel_after_end", "SD.C17_complete_is_final"], "note": "for an on_finish that keeps errors"},
  {"property": "C18", "status": "partial", "theorems": ["SD.C18_drop_ends_task_violated", "SD.C18_drop_ends_task_partial", "SD.C18_drop_ends_task_unbounded_partial", "SD.C18_drop_without_cancel"], "note": "violated: a task paused on full storage does not look at the cancellation; otherwise it ends after a bounded number of its own steps once its select! picks the cancellation"},
  {"property": "C19", "status": "partial", "theorems": ["SD.C19_waits_for_the_task_violated", "SD.C19_waits_for_the_task_partial"], "note": "violated after cancel or drop: the same token both requests cancellation and signals completion; holds if nobody cancels"},
  {"property": "C20", "status": "proved", "theorems": ["SD.C20_bounded_is_fifo", "SD.C20_bounded_memory_is_fifo", "SD.C20_bounded_temp_is_fifo"], "note": "refinement to a FIFO queue for every lawful inner storage; memory and temp-file instances"},
  {"property": "C21", "status": "proved", "theorems": ["SD.C21_write_keeps_unread", "SD.C21_memory_never_grows", "SD.C21_temp_never_grows"], "note": "for every history of writes, reads and reader seeks"},
  {"property": "C22", "status": "proved", "theorems": ["SD.C22_overwritten_rejected"], "note": "for every history and build mode"},
  {"property": "C23", "status": "partial", "theorems": ["SD.C23_lossless_violated", "SD.C23_lossless_violated_checked", "SD.C23_bounded_is_tape_partial"], "note": "violated by forward-then-backward seeks (counter underflow); refinement to a tape holds while backward seeks stay within the credit"},
  {"property": "C24", "status": "partial", "theorems": ["SD.C24_within_capacity_violated", "SD.C24_within_capacity_partial"], "note": "violated if the content is shorter than the read buffer (size clamped to content length); holds otherwise"},
  {"property": "C25", "status": "proved", "theorems": ["SD.C25_adaptive_choice", "SD.C25_adaptive_writer"], "note": "behavioural equality with the chosen storage"},
  {"property": "C26", "status": "partial", "theorems": ["SD.C26_oversized_read_violated", "SD.C26_known_length_partial"], "note": "violated for adaptive storage on a stream of unknown length: a read larger than the buffer waits for ever; holds if the length is known"},
  {"property": "C27", "status": "proved", "theorems": ["SD.C27_memory_is_byte_map", "SD.C27_memory_returns_last_write"], "note": "refinement to a byte map"},
  {"property": "C28", "status": "partial", "theorems": ["SD.C28_only_written_violated", "SD.C28_only_written_partial"], "note": "violated for positions not written yet; exact for written ones"},
  {"property": "C29", "status": "partial", "theorems": ["SD.C29_no_panic_violated", "SD.C29_no_panic_partial"], "note": "panics exactly if the reader is beyond the end of the storage"},
  {"property": "C30", "status": "proved", "theorems": ["SD.C30_temp_never_stale"], "note": "refinement to an abstract file, read the way the stream reads"},
  {"property": "C31", "status": "partial", "theorems": ["SD.C31_range_requests_violated", "SD.C31_range_requests_violated_at_end", "SD.C31_range_requests_partial", "SD.C31_unknown_length_partial", "SD.C31_range_requests_sequential"], "note": "violated: a forward seek past the end of the writer's gap asks for an inverted range, a seek to the end for an empty one; starts and ends are right otherwise"},
  {"property": "C32", "status": "proved", "theorems": ["SD.C32_unseekable_never_asked", "SD.C32_unseekable_reads_exact", "SD.C03_reads_after_seeks_bounded_partial"], "note": "no seek_range in any history; reads exact for arbitrary seeks"},
  {"property": "C33", "status": "proved", "theorems": ["SD.C33_gap_filling_stored", "SD.C33_complete_means_stored", "SD.C33_gap_filling", "SD.C33_complete_means_covered"], "note": "every history; in terms of the writes the storage accepted, and in terms of the recorded ranges"},
  {"property": "C34", "status": "proved", "theorems": ["SD.C34_membership", "SD.C34_lookup", "SD.C34_next_gap", "SD.C34_canonical"], "note": "range bookkeeping refines a set of positions"},
  {"property": "C35", "status": "partial", "theorems": ["SD.C35_reconnect_violated", "SD.C35_reconnect_unbounded", "SD.C35_reconnect_bounded_partial"], "note": "violated by bounded storage if bytes of the prefetch are waiting to be written (duplicated); holds otherwise"},
  {"property": "C36", "status": "partial", "theorems": ["SD.C36_callback_violated", "SD.C36_callback_partial", "SD.C36_callback_partial_no_error"], "note": "violated: on_reconnect is also called if reconnect returned an error; never without a reconnect and never after a time-out"},
  {"property": "C37", "status": "partial", "theorems": ["SD.C37_error_is_not_eof_violated", "SD.C37_error_is_not_eof_partial"], "note": "violated if the length is not known: transport errors are only logged; holds for seekable sources of known length, if the consumer goes back only over bytes that it has read or that are downloaded"},
  {"property": "C38", "status": "proved", "theorems": ["SD.C38_downloading_report", "SD.C38_complete_is_last"], "note": "every history and storage"},
  {"property": "C39", "status": "partial", "theorems": ["SD.C39_no_panic_violated_empty_chunk", "SD.C39_panic_leaves_reader_blocked", "SD.C39_no_panic_violated_writer_seek", "SD.C39_no_panic_unbounded_partial", "SD.C39_no_panic_windowed_partial", "SD.C39_no_panic_windowed_sequential_partial", "SD.C39_no_panic_any_transport_partial", "SD.C39_no_panic_unchecked_partial"], "note": "violated by an empty chunk before anything is stored, and by bounded storage with overflow checks if the writer has to seek back; holds in every other history"},
  {"property": "C40", "status": "proved", "theorems": ["SD.C40_prefetch_first"], "note": "without seeks, every storage"},
  {"property": "C41", "status": "partial", "theorems": ["SD.C41_chunks_stored_violated", "SD.C41_chunks_stored_unbounded_partial", "SD.C41_chunks_stored_unseekable_partial", "SD.C41_chunks_stored_sequential_partial"], "note": "violated with bounded storage on a seekable source: bytes left over from the prefetch survive a seek and are stored at the wrong position; holds for unbounded storage, for unseekable sources and without seeks"},
  {"property": "C42", "status": "proved", "theorems": ["SD.C42_range_header", "SD.C42_open_range_header", "SD.C42_headers_differ"], "note": "every start and end of a non-empty range, unless start is the content length (C43: no request is sent then)"},
  {"property": "C43", "status": "proved", "theorems": ["SD.C43_seek_to_end", "SD.C43_other_seeks"], "note": "every stream state, position and server; end = 0, where the code computes end - 1, is excluded"},
  {"property": "C44", "status": "partial", "theorems": ["SD.C44_reconnect_resumes_violated", "SD.C44_reconnect_error_page_violated", "SD.C44_reconnect_resumes_partial"], "note": "violated: without range support a reconnect restarts at byte 0, and with it an error status is not looked at; holds if the server honours ranges"},
  {"property": "C45", "status": "proved", "theorems": ["SD.C45_fetch_failure", "SD.C45_response_failure", "SD.C45_success"], "note": "every answer of the client"},
  {"property": "C46", "status": "proved", "theorems": ["SD.C46_chosen_entry", "SD.C46_no_match", "SD.C46_order_irrelevant"], "note": ""},
  {"property": "C47", "status": "proved", "theorems": ["SD.C47_handler_input", "SD.C47_into_raw"], "note": "the second for a url parser that prints back what it parses"},
  {"property": "C48", "status": "partial", "theorems": ["SD.C48_resubmit_violated", "SD.C48_resubmit_partial"], "note": "violated: an entry that comes earlier may have a rule for the input without its prefix; holds for inputs that matched without a prefix, and if no such entry exists"},
  {"property": "C49", "status": "proved", "theorems": ["SD.C49_entry", "SD.C49_any_url", "SD.C49_any_string", "SD.C49_string", "SD.C49_any_http", "SD.C49_url_scheme", "SD.C49_url_domain", "SD.C49_http_domain", "SD.C49_url", "SD.C49_string_matcher"], "note": ""},
  {"property": "C50", "status": "proved", "theorems": ["SD.C50_ffmpeg_command"], "note": "every sequence of builder calls"},
  {"property": "C51", "status": "proved", "theorems": ["SD.C51_pipeline", "SD.C51_pipeline_starts", "SD.C51_pipeline_fails"], "note": "commands that bring their own error handle have no error file"},
  {"property": "C52", "status": "partial", "theorems": ["SD.C52_failure_is_reported_violated", "SD.C52_stack_failure_is_reported_violated", "SD.C52_process_end_partial", "SD.C52_keeps_errors"], "note": "violated: a process that writes its output and exits with a failure status leaves a successful stream; what is awaited, killed and looked at is stated for every result and outcome"},
  {"property": "C53", "status": "proved", "theorems": ["SD.C53_yt_dlp_command"], "note": "every sequence of builder calls"},
  {"property": "C54", "status": "proved", "theorems": ["SD.C54_chunks_in_place", "SD.C54_end", "SD.C54_whole_range", "SD.C54_length"], "note": "every history of polls, seeks and failures; chunks are bounded by the room the allocator provides when asked for the chunk size"},
  {"property": "C55", "status": "proved", "theorems": ["SD.C55_last_call_wins", "SD.C55_getters", "SD.C55_batch_size_positive"], "note": "every sequence of calls"},
  {"property": "C56", "status": "partial", "theorems": ["SD.C56_truncated_violated", "SD.C56_truncated_partial"], "note": "violated: a seekable resource shorter than declared is requested again for ever; it is never reported complete and the task does not end without an error"},
  {"property": "C57", "status": "partial", "theorems": ["SD.C57_seek_is_delivered_violated", "SD.C57_seek_is_delivered_partial"], "note": "violated: the message of a seek is dropped if an earlier one is still queued; delivered if the queue is empty"},
  {"property": "C58", "status": "partial", "theorems": ["SD.C58_available_range_violated", "SD.C58_available_range_partial"], "note": "violated: a request published after the task compared positions sleeps although its range is stored; holds if it is published before"},
  {"property": "C59", "status": "partial", "theorems": ["SD.C59_seek_delivers_violated", "SD.C59_seek_delivers_partial", "SD.C59_chunks_in_place_partial"], "note": "violated for a server that ignores Range: supports_seek is always true and a full body is accepted; holds if the server honours ranges"},
  {"property": "C60", "status": "proved", "theorems": ["SD.C60_reader_bytes", "SD.C60_ends_for_good", "SD.C60_no_seek"], "note": "with the semantics of tokio-util's ReaderStream, which is not in the sandbox and is trusted"},
  {"property": "C61", "status": "partial", "theorems": ["SD.C61_reads_violated", "SD.C61_sequential_unbounded", "SD.C61_sequential_bounded_partial", "SD.C61_unblocked_read_unknown_length", "SD.C61_unblocked_read_partial", "SD.C61_forward_reads_partial", "SD.C61_forward_reads_violated", "SD.C61_forward_reads_unknown_length", "SD.C61_forward_bounded_unknown_length_partial", "SD.C61_forward_bounded_known_length_partial"], "note": "violated: after seeks to 8, 2 and 15 the task asks for the range from 15 to 8, the server ignores the invalid header and sends the resource from its start, and a read at 15 returns its first bytes; holds without seeks (bounded storage: no reconnect while received bytes wait), for unblocked reads if the length is unknown, and otherwise as long as no improper range is asked for. Also violated by two forward jumps without any failure (a race between the check of the consumer and its request); seeks forward, and back over bytes that were read or are downloaded, are exact if the length is unknown"},
  {"property": "C62", "status": "partial", "theorems": ["SD.C62_http_read_to_end_violated", "SD.C62_read_to_end_unbounded", "SD.C62_read_to_end_bounded_partial", "SD.C62_http_read_to_end_unbounded", "SD.C62_http_read_to_end_bounded_partial", "SD.C62_read_to_end_unknown_length", "SD.C62_read_to_end_unknown_length_bounded_partial", "SD.C62_http_read_to_end_unknown_length", "SD.C62_http_read_to_end_unknown_length_bounded_partial", "SD.C62_read_to_end_any_transport", "SD.C62_read_to_end_any_server"], "note": "violated with bounded storage: if the connection stalls while bytes of the prefetch wait to be written, the reconnect repeats them and the tail is lost; holds for storage that keeps everything, and for bounded storage if no reconnect succeeds in that situation. Whatever the transport does, a consumer that reads until a read is short is at the declared length or has everything that was received"},
  {"property": "C63", "status": "partial", "theorems": ["SD.C63_calls_return_violated", "SD.C63_calls_return_unbounded", "SD.C63_reads_return_value", "SD.C63_reads_return_value_bounded", "SD.C63_reads_return_value_adaptive_partial", "SD.C63_calls_return_value_known_length", "SD.C63_reads_return_bounded_partial", "SD.C63_reads_return_adaptive_partial", "SD.C63_calls_return_finite", "SD.C63_http_calls_return_partial", "SD.C63_opendal_calls_return", "SD.C63_reader_calls_return", "SD.C63_process_calls_return"], "note": "violated for a seek on bounded storage whose buffer is full: the task waits for a read and the seek for the task; proved for every call on storage that keeps everything, and for reads on bounded and adaptive storage, on infinite histories with weak fairness in which the transport keeps delivering, or (C63_calls_return_finite) delivers a finite resource and ends; the position 2^64-1 (C26) and panics of the task (C39) are excluded; carried over to HTTP (with bodies that do not break off, as long as no improper range is asked for), OpenDAL, readers and processes with storage that keeps everything"},
  {"property": "C64", "status": "partial", "theorems": ["SD.C64_reads_violated", "SD.C64_read_to_end_violated", "SD.C64_sequential_unbounded", "SD.C64_sequential_bounded_partial", "SD.C64_unblocked_read", "SD.C64_forward_reads_partial", "SD.C64_read_to_end_unbounded", "SD.C64_read_to_end_bounded_partial", "SD.C64_forward_bounded_partial"], "note": "violated by a backward seek (the witness of C03) and by a stall with bounded storage (that of C62); holds on storage that keeps everything without seeks and for seeks forward to anywhere and back over bytes that were read or are downloaded, for every read that does not wait, and on bounded storage without seeks if no reconnect succeeds while received bytes wait"},
  {"property": "C65", "status": "partial", "theorems": ["SD.C65_failure_is_reported_violated", "SD.C65_reads_exact_violated", "SD.C65_reads_exact_partial", "SD.C65_reads_exact_unknown_length", "SD.C65_reads_exact_bounded", "SD.C65_read_to_end_partial", "SD.C65_read_to_end_bounded_partial"], "note": "violated: an error of the reader is logged and the consumer sees the end of the stream, or, with a declared length and memory storage, zeros; every read is exact, through any seeks, if the reader does not fail, if the length is unknown, or with bounded storage, and reading to the end is exact if the reader does not fail"},
  {"property": "C66", "status": "proved", "theorems": ["SD.C66_stream_failure", "SD.C66_storage_failure", "SD.C66_started_iff_created", "SD.C66_created", "SD.C66_supported_storage_creates"], "note": ""},
  {"property": "C67", "status": "partial", "theorems": ["SD.C67_http_end_to_end", "SD.C67_http_end_to_end_bounded_partial", "SD.C67_reader_end_to_end", "SD.C67_opendal_end_to_end", "SD.C67_process_end_to_end"], "note": "for consumers that do not seek (readers and processes: any seeks); with bounded storage only if no reconnect succeeds while received bytes wait, otherwise violated (C62)"},
  {"property": "C68", "status": "partial", "theorems": ["SD.C68_rest_after_seek_violated", "SD.C68_rest_after_seek_unknown_length_violated", "SD.C68_rest_after_seek", "SD.C68_rest_after_seek_unknown_length", "SD.C68_rest_after_seek_bounded_partial", "SD.C68_rest_after_seek_bounded_unknown_length_partial", "SD.C68_http_rest_after_seek_partial", "SD.C68_http_rest_after_seek_unknown_length", "SD.C68_opendal_rest_after_seek"], "note": "violated for bounded storage on a seekable source: filling the skipped gap moves the writer behind the consumer and the rest of the stream is lost without an error; proved for storage that keeps everything if the consumer goes back only over bytes that it has read or that are downloaded (any seeks on unseekable sources), and for bounded storage on unseekable sources with forward seeks; carried over to HTTP (with a known length as long as no improper range is asked for, C61) and to OpenDAL"},
  {"property": "C69", "status": "partial", "theorems": ["SD.C69_processes_end_violated", "SD.C69_cancel_kills_violated", "SD.C69_start_failure_violated", "SD.C69_last_process_ends_partial", "SD.C69_success_waits", "SD.C69_undisturbed", "SD.C69_finish_ends_process", "SD.C69_cancel_kills_partial", "SD.C69_earlier_processes_ignored", "SD.C69_creation_failure_partial"], "note": "violated: the commands of a pipeline before the last are never killed or awaited, and a process that closes its output and goes on is not ended by cancelling or dropping the stream; for the last command everything holds once the task is over"},
  {"property": "C70", "status": "partial", "theorems": ["SD.C70_reads_exact_partial", "SD.C70_reads_exact_unknown_length", "SD.C70_reads_exact_bounded", "SD.C70_read_to_end_partial", "SD.C70_read_to_end_bounded_partial"], "note": "every read is exact, through any seeks, if reading from the process does not fail, if the length is unknown, or with bounded storage; reading to the end is exact if reading from the process does not fail and the declared length is right (otherwise violated, C65)"},
  {"property": "C71", "status": "partial", "theorems": ["SD.C71_download_ends_violated", "SD.C71_download_ends_unbounded", "SD.C71_download_ends_bounded_partial", "SD.C71_http_download_ends_violated", "SD.C71_http_download_ends_partial", "SD.C71_http_download_ends_sequential", "SD.C71_opendal_download_ends", "SD.C71_reader_download_ends", "SD.C71_process_download_ends"], "note": "violated if the transport ends again and again without delivering anything, although it answers every request (a server whose range answers are empty): the task asks again at once and for ever, and a waiting read never returns; proved if the transport ends only where the resource or the requested range ends: for storage that keeps everything, whatever the consumer does as long as it stops seeking, and for bounded storage if the consumer reads to the end, no buffer is empty and no reconnect succeeds while received bytes wait; carried over to HTTP (violated if every body breaks off before its first byte), OpenDAL, readers and processes, where the last command of the pipeline is also reaped"},
  {"property": "C72", "status": "partial", "theorems": ["SD.C72_reading_ends_unbounded", "SD.C72_reading_ends_bounded_partial", "SD.C72_reading_ends_adaptive_partial", "SD.C72_http_reading_ends", "SD.C72_http_reading_ends_bounded_partial", "SD.C72_opendal_reading_ends", "SD.C72_opendal_reading_ends_bounded_partial", "SD.C72_reader_reading_ends", "SD.C72_reader_reading_ends_bounded", "SD.C72_process_reading_ends", "SD.C72_process_reading_ends_bounded", "SD.C72_whole_resource_unbounded", "SD.C72_whole_resource_bounded_partial", "SD.C72_whole_resource_adaptive_partial", "SD.C72_http_whole_resource", "SD.C72_http_whole_resource_bounded_partial", "SD.C72_opendal_whole_resource", "SD.C72_opendal_whole_resource_bounded_partial", "SD.C72_reader_whole_resource", "SD.C72_reader_whole_resource_bounded_partial", "SD.C72_process_whole_resource", "SD.C72_process_whole_resource_bounded_partial"], "note": "for a transport that ends only where the resource or the requested range ends (otherwise violated, C71) and buffers that do not reach position 2^64-1; bounded and adaptive storage: if no reconnect succeeds while received bytes wait (C62), and adaptive storage: if no buffer is longer than the storage (C26); carried over to HTTP, OpenDAL, readers and processes, with readers and processes without the condition on reconnects because they never reconnect; the theorems whole_resource say that without cancellation, errors of on_finish and (bounded, adaptive) overlong buffers no read fails, so that the whole resource is received"},
  {"property": "C73", "status": "partial", "theorems": ["SD.C73_same_results", "SD.C73_claims_carry_over", "SD.C73_sequential_unbounded", "SD.C73_sequential_bounded", "SD.C73_read_to_end_unbounded", "SD.C73_no_mutual_wait_violated", "SD.C73_no_mutual_wait_unbounded_partial", "SD.C73_read_wakes_task", "SD.C73_paused_means_full", "SD.C73_calls_return_unbounded", "SD.C73_calls_return_finite", "SD.C73_download_ends_unbounded", "SD.C73_reading_ends_unbounded"], "note": "results of calls: every history; sleeping for ever: violated with bounded storage, holds for storage that keeps everything. Processors weaker than x86: C79"},
  {"property": "C74", "status": "partial", "theorems": ["SD.C74_same_results", "SD.C74_sequential_unbounded", "SD.C74_sequential_bounded", "SD.C74_downloaded_can_be_read", "SD.C74_waits_for_ever", "SD.C74_not_released", "SD.C74_completion_not_reported", "SD.C74_waiting_call_returns_violated"], "note": "results of calls and reading of what is there: every history. Violated: a call that has to wait after the shutdown never returns, nor does wait_for_completion, because nothing tells the consumer that the task was dropped"},
  {"property": "C75", "status": "partial", "theorems": ["SD.C75_cancel_ends_download_violated", "SD.C75_http_cancel_ends_download_violated", "SD.C75_cancel_ends_download_unbounded_partial", "SD.C75_calls_return_unbounded_partial", "SD.C75_cancel_ends_or_waits_for_room_partial", "SD.C75_http_cancel_ends_download_partial", "SD.C75_opendal_cancel_ends_download", "SD.C75_reader_cancel_ends_download", "SD.C75_process_cancel_ends_download", "SD.C75_cancel_in_time"], "note": "violated if a seek_range never returns (a server that accepts a range request and never answers): neither the cancellation nor the retry timeout applies there, so the task and a waiting seek hang for ever. Proved otherwise, for storage that keeps everything, whatever else the transport does; other storage: the task ends, panics (C39) or waits for room again and again (C18)"},
  {"property": "C76", "status": "partial", "theorems": ["SD.C76_reads_succeed_violated", "SD.C76_reads_succeed_unbounded", "SD.C76_reads_succeed_bounded_partial", "SD.C76_reads_succeed_adaptive_partial", "SD.C76_http_reads_succeed", "SD.C76_http_reads_succeed_bounded_partial", "SD.C76_opendal_reads_succeed", "SD.C76_opendal_reads_succeed_bounded_partial", "SD.C76_reader_reads_succeed", "SD.C76_reader_reads_succeed_bounded_partial", "SD.C76_process_reads_succeed", "SD.C76_process_reads_succeed_bounded_partial"], "note": "violated for bounded storage that is larger than the resource (C24): a buffer that fits the configured size but not the resource makes the read fail. Proved for storage that keeps everything, and for bounded and adaptive storage if no buffer is longer than the storage; over HTTP and OpenDAL it also covers the range requests, because there are none; for processes, if the calls to the operating system succeed"},
  {"property": "C77", "status": "proved", "theorems": ["SD.C77_no_range_requests", "SD.C76_http_reads_succeed", "SD.C76_http_reads_succeed_bounded_partial", "SD.C76_opendal_reads_succeed", "SD.C76_opendal_reads_succeed_bounded_partial", "SD.C76_reader_reads_succeed", "SD.C76_reader_reads_succeed_bounded_partial", "SD.C76_process_reads_succeed", "SD.C76_process_reads_succeed_bounded_partial"], "note": "for every storage; the joint theorems of C76 state it for each transport"},
  {"property": "C78", "status": "partial", "theorems": ["SD.C78_sequential_unbounded_partial", "SD.C78_sequential_blank", "SD.C78_sequential_bounded", "SD.C78_read_to_end_unbounded", "SD.C78_read_to_end_bounded_partial", "SD.C78_http_read_to_end_unbounded", "SD.C78_reads_after_seeks_partial", "SD.C78_reads_after_seeks_bounded_partial", "SD.C78_reads_after_seeks_violated", "SD.C78_unblocked_read_exact", "SD.C78_no_panic_unbounded_partial", "SD.C78_no_panic_windowed_partial", "SD.C78_calls_return_unbounded_partial", "SD.C78_reads_return_bounded_partial", "SD.C78_download_ends_unbounded_partial", "SD.C78_failed_write_ends", "SD.C78_failed_writer_seek_ends"], "note": "any storage with any sequence of failing reads, writes and seeks (a wrapper around every supported storage): without seeks, successful reads are exact and complete; a failed write ends the download as failed with that error; reads return, the task does not panic, the download ends. Violated for seeks: if moving the storage's reader fails after the source has jumped, the next read at the old position is released by data written behind the jump and returns bytes that were never received. The partial theorems exclude that, and what C03, C39, C63 and C71 exclude. Not covered: storage whose failed operation has an effect, failing flush other than after a write, failing stream_position"},
  {"property": "C79", "status": "partial", "theorems": ["SD.C79_same_results_partial", "SD.C79_same_results_sequential", "SD.C79_claims_carry_over_partial", "SD.C79_sequential_unbounded", "SD.C79_sequential_bounded", "SD.C79_read_to_end_unbounded", "SD.C79_x86_included", "SD.C79_no_mutual_wait_violated", "SD.C79_no_mutual_wait_unbounded_partial", "SD.C79_read_wakes_task", "SD.C79_paused_means_full", "SD.C79_calls_return_unbounded_partial", "SD.C79_calls_return_finite_partial", "SD.C79_download_ends_unbounded_partial", "SD.C79_reading_ends_unbounded"], "note": "results of calls: every history without seeks, and every history with seeks in which no request is lost because the seek channel is full (such a lost message does not synchronise, and is excluded by the hypothesis Sends). Sleeping for ever: violated with bounded storage, as on x86; for storage that keeps everything calls return and downloads end (with Sends if there are seeks). Late visibility only; load buffering is not modelled"},
  {"property": "C80", "status": "partial", "theorems": ["SD.C80_sequential_partial", "SD.C80_sequential_blank", "SD.C80_reads_after_seeks_partial", "SD.C80_unblocked_read", "SD.C80_nothing_only_at_end_partial", "SD.C80_nothing_only_at_end_unknown_length_partial", "SD.C80_read_to_end", "SD.C80_no_panic_partial", "SD.C80_never_pauses", "SD.C80_calls_return", "SD.C80_download_ends", "SD.C80_reading_ends"], "note": "any storage that keeps everything, with any sequence of short writes and reads. Short writes, and bounded storage over storage with short transfers, are also part of the hypotheses of all other properties (Unbounded, Windowed). Missing, because they fail without short transfers too: sources that end before their declared length (C01), seeks back (C03), empty chunks (C39)"},
  {"property": "C81", "status": "partial", "theorems": ["SD.C81_errors_violated", "SD.C81_hanging_seek_violated", "SD.C81_hanging_seek", "SD.C81_no_early_reconnect", "SD.C81_silence_reconnects_partial", "SD.C81_waits_bounded", "SD.C81_silence_goes_on", "SD.C81_time_passes", "SD.C81_same_histories", "SD.C81_elapsed_grows"], "note": "violated for sources that yield errors or empty chunks instead of data (each restarts the timer), and while a request for a range is not answered (no timer). Proved: never an early reconnect, for every storage, history and schedule; a source from which nothing at all arrives while the task waits for a chunk is reconnected after retry_timeout and then at least every two retry_timeouts, if timers are punctual and the consumer does not seek meanwhile; punctual timers never bring time to a halt"},
  {"property": "C82", "status": "partial", "theorems": ["SD.C82_download_ends_unbounded", "SD.C82_calls_return", "SD.C82_reading_ends_unbounded", "SD.C82_reading_ends_bounded_partial", "SD.C82_whole_resource_unbounded", "SD.C82_whole_resource_bounded_partial", "SD.C82_http_download_ends_partial", "SD.C82_http_download_ends_sequential", "SD.C82_http_calls_return_partial", "SD.C82_http_reading_ends", "SD.C82_http_reading_ends_bounded_partial", "SD.C82_http_whole_resource", "SD.C82_http_whole_resource_bounded_partial"], "note": "complete for storage that keeps everything, at the level of the download task and over HTTP (for HTTP with seeks as long as proper ranges are asked for, C61). Bounded storage: if no reconnect succeeds while received bytes wait to be written (C35). That bytes go on arriving is needed: C71_download_ends_violated, C71_http_download_ends_violated"},
  {"property": "C83", "status": "partial", "theorems": ["SD.C83_requests_bounded", "SD.C83_requests_unknown_length", "SD.C83_no_requests_without_seeks", "SD.C83_requests_have_a_cause", "SD.C83_http_requests_bounded_partial", "SD.C83_http_no_requests_without_seeks", "SD.C83_opendal_requests_bounded"], "note": "complete for storage that keeps everything and a transport that resumes where it is asked to, for OpenDAL with any seeks, and for HTTP as long as proper ranges are asked for (C61; always without seeks). C83_requests_unknown_length and C83_requests_have_a_cause (one request at most for every seek and every end of a connection) hold for every storage and transport. Missing: the sharp bound for bounded storage with a known length"},
  {"property": "C84", "status": "partial", "theorems": ["SD.C84_nothing_twice_violated", "SD.C84_http_nothing_twice_violated", "SD.C84_nothing_twice_unknown_length_violated", "SD.C84_nothing_twice_partial", "SD.C84_sequential", "SD.C84_http_nothing_twice_partial", "SD.C84_http_sequential", "SD.C84_opendal_nothing_twice_violated", "SD.C84_opendal_nothing_twice_partial", "SD.C84_opendal_sequential"], "note": "violated: a reconnect asks for everything from the writer to the end of the resource, so a stall while a gap is being filled makes everything behind the gap arrive again; without a known length a seek back does. Holds with any seeks if reconnects only succeed while the connection is to deliver everything up to the end, and always for consumers that do not seek; for storage that keeps everything"},
  {"property": "C85", "status": "partial", "theorems": ["SD.C85_isolated", "SD.C85_others_untouched_violated", "SD.C85_others_untouched_partial", "SD.C85_named_while_read", "SD.C85_no_name_left", "SD.C85_space_is_freed", "SD.C85_own_file", "SD.C85_file_is_where_asked"], "note": "complete except for files of other programs: dropping a stream removes what its name leads to by then, which can be a file that another program made there after the name had been removed (C85_others_untouched_violated); holds if nobody removes the names of the streams' files"},
  {"property": "C86", "status": "proved", "theorems": ["SD.C86_client_has_what_was_added", "SD.C86_every_request_is_seen", "SD.C86_watching_changes_nothing", "SD.C86_first_added_decides"], "note": "that reqwest_middleware hands a request to its middlewares in order is part of the trusted base"},
  {"property": "C87", "status": "partial", "theorems": ["SD.C87_never_dry_unbounded", "SD.C87_never_dry_bounded_violated", "SD.C87_never_dry_bounded_partial", "SD.C87_never_dry_adaptive_partial"], "note": "complete for storage that keeps everything; bounded and adaptive storage: if no reconnect succeeds while received bytes wait to be written (otherwise violated for ever after) and no buffer is longer than the storage (C26)"},
  {"property": "C88", "status": "partial", "theorems": ["SD.C88_any_server_is_a_transport", "SD.C88_no_panic", "SD.C88_no_panic_supported_partial", "SD.C88_no_panic_unchecked_partial", "SD.C88_calls_return", "SD.C88_reads_return_value", "SD.C88_reads_return_value_bounded", "SD.C88_cancel_ends_download", "SD.C88_requests_have_a_cause", "SD.C88_stored_as_received", "SD.C88_reads_return_bounded_partial", "SD.C88_cancel_ends_or_waits_for_room_partial"], "note": "complete for storage that keeps everything; that a server which only sends empty bodies keeps a read waiting is C71. Bounded storage: reads, cancellation up to waiting for room (C18), no panics in builds without overflow checks, or without seeks; seeks on it need not return (C63), and with seeks and overflow checks it can panic (C39)"},
  {"property": "C89", "status": "partial", "theorems": ["SD.C89_delivered_as_received", "SD.C89_reads_received_unseekable", "SD.C89_http_delivered_as_received", "SD.C89_delivered_as_received_violated", "SD.C89_reads_agree_partial"], "note": "complete for storage with nothing to read before it is written (temp files, memory without a known length, bounded storage); violated for memory made for a known length, for which the partial theorem says that what was received is read as it was received"},
  {"property": "C90", "status": "partial", "theorems": ["SD.C90_any_source_is_a_transport", "SD.C90_no_panic", "SD.C90_no_panic_supported_partial", "SD.C90_no_panic_unchecked_partial", "SD.C90_stored_as_received", "SD.C90_requests_have_a_cause", "SD.C90_delivered_as_received", "SD.C90_reads_received_unseekable", "SD.C90_short_reads", "SD.C90_end_of_file_is_real", "SD.C90_read_to_end", "SD.C90_reads_do_not_panic", "SD.C90_seeks_do_not_panic_partial", "SD.C90_calls_return", "SD.C90_reads_return_value", "SD.C90_reads_return_value_bounded", "SD.C90_calls_return_value_partial", "SD.C90_cancel_ends_download", "SD.C90_reads_return_bounded_partial", "SD.C90_cancel_ends_or_waits_for_room_partial"], "note": "complete for storage that keeps everything (delivery: unless it is memory made for a known length, see C89). Bounded storage: delivery, requests, reads, cancellation up to waiting for room (C18), no panics in builds without overflow checks, or without seeks; seeks on it need not return (C63), and with seeks and overflow checks it can panic (C39)"},
  {"property": "C91", "status": "partial", "theorems": ["SD.C91_read_panics_violated", "SD.C91_seek_back_panics_violated", "SD.C91_seek_overflow_panics_violated", "SD.C91_reads_do_not_panic_partial", "SD.C91_known_length_partial", "SD.C91_bounded_unchecked_partial", "SD.C91_temp_file_partial", "SD.C91_any_server_partial"], "note": "complete for consumers that do not seek, with every storage of the library. With seeks: complete for known lengths and storage that keeps everything, up to overflows in a relative seek in builds with overflow checks; for bounded storage in builds without them. Violated: memory of unknown length beyond the end; bounded storage and relative seeks in builds with overflow checks. Temp files: with any length, as for known lengths"}
]}
