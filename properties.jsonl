{"id": "C01", "title": "Sequential reads return exactly the remote bytes", "statement": "If the consumer only calls read (no seeks), then at every moment the concatenation of everything the read calls have returned is exactly the prefix of the remote resource of that length: no byte is lost, duplicated, reordered or invented. This holds for memory, temp-file and bounded storage.", "quantifier": "every remote content, every chunking of it by the transport, every prefetch size, batch size and storage capacity, every sequence of read buffer sizes, every interleaving of the reader thread with the download task, transport chunk errors, early ends of the connection and (unbounded storage) successful range reconnects", "why_tests_cant": "The result depends on the interleaving of two threads and on how the transport splits the content; tests run a few chunkings and whatever schedule the machine picks.", "anchors": ["crates/stream-download/src/lib.rs: StreamDownload::read, handle_read", "crates/stream-download/src/source/mod.rs: Source::write, write_batched, handle_prefetch, handle_bytes", "crates/stream-download/src/source/handle.rs: SourceHandle::wait_for_position"]}
{"id": "C02", "title": "A read served without blocking returns the remote bytes", "statement": "With unbounded storage, a read whose whole requested range is already recorded as downloaded when it is issued returns exactly the remote bytes at the consumer's position, whatever seeks, reconnects and gap fills happened before and whatever the download task does meanwhile.", "quantifier": "every history of reads and seeks (forward and backward), every schedule, every chunking and every reconnect on a seekable or unseekable source with unbounded storage", "why_tests_cant": "The set of downloaded ranges depends on the whole history of seeks and on races between seek messages and chunks.", "anchors": ["crates/stream-download/src/lib.rs: StreamDownload::read", "crates/stream-download/src/source/handle.rs: Downloaded", "crates/stream-download/src/source/mod.rs: Source::write, handle_seek, finish_or_find_next_gap"]}
{"id": "C03", "title": "Every read after any seeks returns the remote bytes", "statement": "Every successful read returns the remote bytes at the consumer's current position, for arbitrary sequences of seeks and reads.", "quantifier": "every sequence of seeks and reads, every schedule, both seekable and unseekable sources", "why_tests_cant": "Only particular interleavings of a seek with in-flight chunks (or a read crossing the end of an isolated downloaded range) expose a wrong byte.", "anchors": ["crates/stream-download/src/lib.rs: StreamDownload::read, StreamDownload::seek", "crates/stream-download/src/source/mod.rs: Source::write, handle_seek", "crates/stream-download/src/source/handle.rs: SourceHandle::seek, wait_for_position"]}
{"id": "C04", "title": "Completion means the whole resource is stored", "statement": "When a seekable stream with a known length reports the Complete phase (or readers observe a finished, non-failed download), every byte of [0, content_length) is recorded as downloaded and, with unbounded storage, stored correctly; from then on every seek to a position inside the resource followed by a read returns the exact remote bytes without any further request.", "quantifier": "every history of seeks, chunk boundaries, gaps, early ends of individual range responses and schedules", "why_tests_cant": "The gaps that must be filled before completion depend on an unbounded history of seeks.", "anchors": ["crates/stream-download/src/source/mod.rs: finish_or_find_next_gap, report_download_complete", "crates/stream-download/src/source/handle.rs: Downloaded::next_gap"]}
{"id": "C05", "title": "Seek returns the clamped target and the next read starts there", "statement": "A successful seek to an in-range target returns min(target, content_length) (or the target if the length is unknown) and leaves the consumer exactly at the returned position, so that the next read starts there; a seek never moves the consumer anywhere else.", "quantifier": "every current position, every SeekFrom value whose exact target is non-negative and representable, every content length, every schedule", "why_tests_cant": "The space of positions and offsets is the full 64-bit range and the seek may block and interleave with the download.", "anchors": ["crates/stream-download/src/lib.rs: StreamDownload::seek, get_absolute_seek_position, normalize_requested_position"]}
{"id": "C06", "title": "Seeking before byte 0 is rejected", "statement": "As std::io::Seek requires, a seek whose target is before byte 0 returns an error and does not move the consumer.", "quantifier": "every current position, every negative offset from current or end, known and unknown lengths", "why_tests_cant": "Needs 64-bit wraparound arithmetic on rarely exercised values.", "anchors": ["crates/stream-download/src/lib.rs: get_absolute_seek_position, normalize_requested_position"]}
{"id": "C07", "title": "Seek from end without a known length is rejected without side effects", "statement": "If the content length is unknown, seek(SeekFrom::End(_)) returns an Unsupported error and changes nothing: consumer position, pending requests, download task and storage are as before.", "quantifier": "every state reachable by any history, every offset", "why_tests_cant": "The absence of side effects has to hold in every reachable state of both threads.", "anchors": ["crates/stream-download/src/lib.rs: get_absolute_seek_position, StreamDownload::seek"]}
{"id": "C08", "title": "Oversized reads are rejected up front", "statement": "If the storage reports a maximum capacity, read with a buffer larger than it returns InvalidInput immediately, without blocking and without changing any state; a read whose buffer is not larger is never rejected by this check.", "quantifier": "every reachable state, every buffer length and capacity", "why_tests_cant": "Must hold in every state of the concurrent system, including while the writer is paused.", "anchors": ["crates/stream-download/src/lib.rs: check_for_excessive_read", "crates/stream-download/src/storage/bounded.rs: BoundedStorageProvider::max_capacity"]}
{"id": "C09", "title": "Seeks further ahead than the capacity are rejected up front", "statement": "If the storage reports a maximum capacity c and the consumer is at position p, a seek whose target (clamped to the content length) is greater than p + c returns InvalidInput immediately and changes nothing; targets up to p + c are not rejected.", "quantifier": "every reachable state, position, capacity and target", "why_tests_cant": "Boundary of a sum of 64-bit values with saturation, in every concurrent state.", "anchors": ["crates/stream-download/src/lib.rs: check_for_excessive_seek"]}
{"id": "C10", "title": "A failed download is reported to every later call", "statement": "Once the download has failed (transport error on seek, storage error, cancellation), every read or seek issued afterwards returns an error; the failure is never forgotten.", "quantifier": "every history and schedule after the failure", "why_tests_cant": "Requires stability of the failure flag over all later steps of both threads.", "anchors": ["crates/stream-download/src/lib.rs: check_for_failure", "crates/stream-download/src/source/handle.rs: DownloadStatus", "crates/stream-download/src/source/mod.rs: Source::download"]}
{"id": "C11", "title": "A blocked call is released when the download ends", "statement": "If the download task ends (completes, fails, or is cancelled), a read or seek blocked at that moment or issued later does not block; if the task ended with a failure, the released call returns an error rather than data.", "quantifier": "every schedule and every way the task can end, for every blocked call", "why_tests_cant": "The end of the task may race with the reader going to sleep.", "anchors": ["crates/stream-download/src/source/handle.rs: PositionReached::wait_for_position_reached, notify_stream_done", "crates/stream-download/src/source/mod.rs: Source::download"]}
{"id": "C12", "title": "A released read has its data (or the stream is over)", "statement": "When a blocked read is released, either the download had ended or the download position had reached the position that read asked for: one read's notification is never used to release a later one.", "quantifier": "every schedule of the request / notify / wait protocol, any number of consecutive reads and seeks", "why_tests_cant": "A stale notification needs a particular interleaving of three shared variables.", "anchors": ["crates/stream-download/src/source/handle.rs: RequestedPosition, PositionReached", "crates/stream-download/src/source/mod.rs: Source::write"]}
{"id": "C13", "title": "Short reads and end of file only at the real end", "statement": "Without seeks (or, on unbounded storage, with seeks forward to anywhere and back over bytes that were read or are downloaded), read returns fewer bytes than the buffer can hold (in particular Ok(0) for a non-empty buffer) only if the consumer has reached the known content length or the transport has ended.", "quantifier": "every content, chunking, buffer size sequence and schedule", "why_tests_cant": "A premature end of file needs the reader to run at a particular point of the writer's progress.", "anchors": ["crates/stream-download/src/lib.rs: StreamDownload::read", "crates/stream-download/src/storage/memory.rs: MemoryStorage::read", "crates/stream-download/src/storage/bounded.rs: BoundedStorageReader::read"]}
{"id": "C14", "title": "Backpressure has no lost wakeup", "statement": "With bounded storage, when the download task is paused because the buffer is full, every completed read (and every read that starts waiting) wakes it: the task is never left asleep after a read has freed space.", "quantifier": "every interleaving of the reader's and the task's accesses to the flag and the notifier", "why_tests_cant": "Classic lost-wakeup race; a test cannot enumerate the schedules.", "anchors": ["crates/stream-download/src/source/handle.rs: NotifyRead::request, notify_read, notify_waiting, wait_for_read", "crates/stream-download/src/source/mod.rs: Source::write"]}
{"id": "C15", "title": "A blocked read and a paused download never wait for each other", "statement": "If reads fit in the storage capacity, there is no reachable state in which a read is blocked waiting for data while the download task is paused waiting for that reader.", "quantifier": "every schedule, capacity, content length, chunking and sequence of read sizes without seeks, for bounded and unbounded storage", "why_tests_cant": "Deadlock freedom quantifies over all schedules.", "anchors": ["crates/stream-download/src/source/mod.rs: Source::write", "crates/stream-download/src/source/handle.rs: SourceHandle::wait_for_position", "crates/stream-download/src/storage/bounded.rs: BoundedStorageWriter::write"]}
{"id": "C16", "title": "A blocked seek and a paused download never wait for each other", "statement": "There is no reachable state in which a seek is blocked while the download task is paused waiting for the same consumer to read.", "quantifier": "every schedule, capacity, and sequence of seeks and reads within capacity", "why_tests_cant": "Needs a particular state (full buffer) at the moment of the seek.", "anchors": ["crates/stream-download/src/source/handle.rs: SourceHandle::seek", "crates/stream-download/src/source/mod.rs: Source::write"]}
{"id": "C17", "title": "Cancellation stops the download and is not reported as success", "statement": "If cancellation is the reason the download task stops, the download is marked failed, readers get errors, and no Complete progress report is ever issued; cancelling after completion has no effect on reads.", "quantifier": "every point of the download at which cancel is called, every schedule", "why_tests_cant": "The cancel may arrive at any step of the task.", "anchors": ["crates/stream-download/src/lib.rs: cancel_download", "crates/stream-download/src/source/mod.rs: Source::download, download_inner"]}
{"id": "C18", "title": "Dropping the stream ends the download task", "statement": "If cancel_on_drop is set, after the StreamDownload is dropped the download task stops on its own; if it is not set, dropping does not request cancellation.", "quantifier": "every point of the download at which the drop happens, every storage", "why_tests_cant": "The drop may happen while the task is in any state, including paused on a full buffer.", "anchors": ["crates/stream-download/src/lib.rs: Drop for StreamDownload", "crates/stream-download/src/source/mod.rs: download_inner, write"]}
{"id": "C19", "title": "wait_for_completion returns only after the task has finished", "statement": "StreamHandle::wait_for_completion returns only once the download task (including the source's on_finish hook) has finished.", "quantifier": "every history including cancellation and drop, every schedule", "why_tests_cant": "Depends on which of several events sets the shared token first.", "anchors": ["crates/stream-download/src/lib.rs: StreamHandle::wait_for_completion, handle, from_create_stream"]}
{"id": "C20", "title": "Bounded storage is a FIFO window on the stream", "statement": "Without seeks, a bounded storage of size n behaves exactly like a FIFO queue of at most n bytes: writes append as many bytes as fit, reads return the oldest unread bytes in order, for any wraparound of the underlying buffer.", "quantifier": "every capacity, every sequence of writes and reads of any sizes, every inner storage that behaves like a byte array", "why_tests_cant": "Wraparound positions and partial writes multiply with every operation.", "anchors": ["crates/stream-download/src/storage/bounded.rs: BoundedStorageReader::read, BoundedStorageWriter::write, mapped_read_position, mapped_write_position"]}
{"id": "C21", "title": "Bounded storage never overwrites unread data and never exceeds its size", "statement": "A write into a bounded storage never changes a byte the reader has not consumed yet, and never touches the inner storage at or beyond the configured size.", "quantifier": "every capacity and history of writes, reads and forward/backward repositioning of the reader", "why_tests_cant": "Depends on the arithmetic relation between two unbounded positions modulo the size.", "anchors": ["crates/stream-download/src/storage/bounded.rs: BoundedStorageWriter::write"]}
{"id": "C22", "title": "Reading data that fell out of the bounded window is an error", "statement": "If the reader of a bounded storage is moved back to a position whose data has been overwritten, read returns an InvalidInput error rather than wrong bytes.", "quantifier": "every capacity, write history and reader position", "why_tests_cant": "Needs every relation between reader and writer positions.", "anchors": ["crates/stream-download/src/storage/bounded.rs: BoundedStorageReader::read"]}
{"id": "C23", "title": "Seeking inside the bounded window is lossless", "statement": "If the reader of a bounded storage seeks forward and backward inside the retained window, a following read returns the bytes stored for that position.", "quantifier": "every capacity, history of writes, and sequence of reader seeks inside the window", "why_tests_cant": "The storage keeps separate counters for bytes read and positions, whose relation depends on the seek history.", "anchors": ["crates/stream-download/src/storage/bounded.rs: BoundedStorageReader::seek, BoundedStorageReader::read"]}
{"id": "C24", "title": "Reads within the configured capacity are accepted by bounded storage", "statement": "A read buffer not larger than the configured buffer size of a bounded storage is never rejected as too large.", "quantifier": "every buffer size, content length and read size", "why_tests_cant": "Depends on the relation of three independent sizes.", "anchors": ["crates/stream-download/src/storage/bounded.rs: into_reader_writer, BoundedStorageReader::read", "crates/stream-download/src/lib.rs: check_for_excessive_read"]}
{"id": "C25", "title": "Adaptive storage picks the right backing", "statement": "Adaptive storage uses a bounded buffer exactly when the length is unknown, the fixed storage exactly when the known length is at most the buffer size, and the variable storage otherwise; all reads, writes and seeks go to the chosen one.", "quantifier": "every content length and buffer size, every sequence of operations", "why_tests_cant": "The boundary is a comparison over the full 64-bit range.", "anchors": ["crates/stream-download/src/storage/adaptive.rs: into_reader_writer, AdaptiveStorageReader, AdaptiveStorageWriter"]}
{"id": "C26", "title": "Adaptive storage bounds reads like the storage it picked", "statement": "With adaptive storage, a read larger than the storage can ever hold is rejected instead of blocking forever.", "quantifier": "every read size and every stream of unknown length", "why_tests_cant": "The failing case is a deadlock that depends on a stream longer than the buffer.", "anchors": ["crates/stream-download/src/storage/adaptive.rs: StorageProvider for AdaptiveStorageProvider (max_capacity not forwarded)", "crates/stream-download/src/lib.rs: check_for_excessive_read"]}
{"id": "C27", "title": "Memory storage behaves like a growable byte array", "statement": "For memory storage, after any sequence of writes and writer seeks, reading at a position returns, for each returned byte, the last byte written there; bytes written elsewhere are unaffected; reader and writer positions are independent.", "quantifier": "every initial size, every sequence of writes, reads and seeks with arbitrary overlaps", "why_tests_cant": "Overlapping writes at arbitrary offsets form an unbounded history.", "anchors": ["crates/stream-download/src/storage/memory.rs: MemoryStorage"]}
{"id": "C28", "title": "Memory storage never returns bytes that were never written", "statement": "A read from memory storage returns only bytes that the writer has written.", "quantifier": "every initial size, write history and reader position", "why_tests_cant": "Depends on the relation between a byte counter and positions after seeks.", "anchors": ["crates/stream-download/src/storage/memory.rs: MemoryStorage::read"]}
{"id": "C29", "title": "Memory storage reads never panic", "statement": "Reading from a memory-backed stream never panics, whatever position the reader has been moved to.", "quantifier": "every position and stored length", "why_tests_cant": "The panic needs a reader position past the stored length.", "anchors": ["crates/stream-download/src/storage/memory.rs: MemoryStorage::read", "crates/stream-download/src/lib.rs: StreamDownload::seek"]}
{"id": "C30", "title": "Temp-file storage never serves stale buffered data", "statement": "With temp-file storage, a read issued through the stream always returns what is in the file at that moment, even though the file is read through a buffered reader and may be written concurrently between reads.", "quantifier": "every sequence of writes, reads and seeks at arbitrary offsets, every buffer state", "why_tests_cant": "Staleness depends on what an internal 8 KiB buffer captured earlier.", "anchors": ["crates/stream-download/src/storage/temp.rs: TempStorageReader", "crates/stream-download/src/lib.rs: StreamDownload::read (stream_position before every read)"]}
{"id": "C31", "title": "Range requests are well formed and never redundant", "statement": "Every range the download task asks the source for is non-empty (start < end) and starts at a position that is not downloaded yet.", "quantifier": "every history of seeks, gaps and schedules", "why_tests_cant": "Depends on how three or more downloaded ranges lie around the current and the target position.", "anchors": ["crates/stream-download/src/source/mod.rs: handle_seek, finish_or_find_next_gap, seek"]}
{"id": "C32", "title": "Unseekable sources are never asked to seek", "statement": "If the source does not support seeking, the download task never issues a seek_range request; seeks by the consumer just wait for the stream to catch up, and then return correct data.", "quantifier": "every history of seeks and reads, every schedule", "why_tests_cant": "Has to hold on every path of the task.", "anchors": ["crates/stream-download/src/source/mod.rs: should_seek, finish_or_find_next_gap", "crates/stream-download/src/async_read.rs: AsyncReadStream::supports_seek"]}
{"id": "C33", "title": "Gap filling makes progress and asks for exactly the missing part", "statement": "When the transport ends but parts of a known-length seekable resource are missing, the task requests the first maximal missing range, exactly as long as it is; the download completes exactly when nothing is missing.", "quantifier": "every set of downloaded ranges and every content length", "why_tests_cant": "The set of ranges is unbounded.", "anchors": ["crates/stream-download/src/source/mod.rs: finish_or_find_next_gap", "crates/stream-download/src/source/handle.rs: Downloaded::next_gap, add"]}
{"id": "C34", "title": "Downloaded-range bookkeeping is exact", "statement": "The recorded set of downloaded positions is exactly the union of the recorded ranges; a lookup returns the maximal downloaded range around a position; the next-gap query returns the first maximal missing range of a window, or nothing iff the window is fully downloaded.", "quantifier": "every sequence of recorded ranges, every position and window", "why_tests_cant": "Coalescing of adjacent and overlapping ranges over unbounded histories.", "anchors": ["crates/stream-download/src/source/handle.rs: Downloaded::add, get, next_gap"]}
{"id": "C35", "title": "Reconnecting continues exactly where the download stopped", "statement": "After a successful reconnect to a source that resumes at the requested position, no byte is lost or duplicated in what readers see.", "quantifier": "every point at which the stall happens, every storage and chunking", "why_tests_cant": "The stall may come when a chunk has only been partly stored.", "anchors": ["crates/stream-download/src/source/mod.rs: handle_reconnect, handle_prefetch, handle_bytes"]}
{"id": "C36", "title": "The reconnect callback reports only successful reconnects", "statement": "on_reconnect is called only after the source has successfully reconnected.", "quantifier": "every outcome of the reconnect attempt (success, error, timeout)", "why_tests_cant": "Requires considering each outcome of two nested results in every state.", "anchors": ["crates/stream-download/src/source/mod.rs: handle_reconnect"]}
{"id": "C37", "title": "Transport errors are not reported as a clean end of stream", "statement": "If the transport reported an error and the content was not delivered completely, readers do not see a clean end of file.", "quantifier": "every point at which the error happens, known and unknown lengths", "why_tests_cant": "The error can come after any chunk.", "anchors": ["crates/stream-download/src/source/mod.rs: handle_bytes"]}
{"id": "C38", "title": "Progress reports are accurate and Complete comes last, once", "statement": "Every Downloading report carries the current write position and a downloaded range that ends at it or contains the last written byte; Complete is reported at most once, only when the download completed normally, and nothing is reported after it.", "quantifier": "every history and schedule", "why_tests_cant": "Ordering over unbounded histories.", "anchors": ["crates/stream-download/src/source/mod.rs: report_prefetch_progress, report_downloading_progress, report_download_complete", "crates/stream-download/src/settings.rs: StreamState, StreamPhase"]}
{"id": "C39", "title": "The download task never panics", "statement": "No sequence of transport events and consumer calls makes the download task panic (a panic leaves blocked readers hanging).", "quantifier": "every sequence of chunks (including empty ones), seeks, reads and storage", "why_tests_cant": "Needs unusual chunks or seek histories.", "anchors": ["crates/stream-download/src/source/mod.rs: report_downloading_progress", "crates/stream-download/src/storage/bounded.rs: BoundedStorageWriter::seek"]}
{"id": "C40", "title": "No data before the prefetch is complete", "statement": "Before anything was sought, a read of a not yet delivered position does not return data until the configured number of prefetch bytes has been stored, the stream ended, or the storage is full.", "quantifier": "every prefetch size, chunking and schedule", "why_tests_cant": "Depends on the interleaving of the first reads with the first chunks.", "anchors": ["crates/stream-download/src/source/mod.rs: handle_prefetch", "crates/stream-download/src/settings.rs: prefetch_bytes"]}
{"id": "C41", "title": "Chunks are stored completely, in order, in batches of at most the configured size", "statement": "Each chunk from the transport is handed to the storage completely and in order, in writes of at most batch_write_size bytes, unless an error ends the download.", "quantifier": "every chunk, batch size and pattern of partial writes by the storage", "why_tests_cant": "Partial writes by the storage can happen at any byte.", "anchors": ["crates/stream-download/src/source/mod.rs: write_batched, write"]}
{"id": "C42", "title": "Range headers address exactly the requested bytes", "statement": "The Range header sent for a request of [start, end) (or [start, ...)) denotes exactly those byte positions under the HTTP semantics (inclusive last position), and different ranges give different headers.", "quantifier": "every start and end", "why_tests_cant": "Quantifies over all pairs of 64-bit numbers.", "anchors": ["crates/stream-download/src/http/mod.rs: format_range_header_bytes, seek_range", "crates/stream-download/src/http/reqwest_client.rs: get_range"]}
{"id": "C43", "title": "HTTP seek to the end issues no request", "statement": "Seeking an HTTP stream to exactly its content length issues no request and yields an empty stream; any other seek issues exactly one range request for the remaining or requested bytes and surfaces a failure status as an error.", "quantifier": "every start, end, content length and server response", "why_tests_cant": "Covers every combination of offsets and response statuses.", "anchors": ["crates/stream-download/src/http/mod.rs: HttpStream::seek_range"]}
{"id": "C44", "title": "HTTP reconnect resumes at the current position", "statement": "After an HTTP reconnect at position p, the next bytes delivered are those from offset p of the resource.", "quantifier": "every position, and servers with and without range support", "why_tests_cant": "Depends on the server's headers.", "anchors": ["crates/stream-download/src/http/mod.rs: HttpStream::reconnect"]}
{"id": "C45", "title": "HTTP creation classifies failures and reads the length from the response", "statement": "Creating an HTTP stream fails with a fetch failure exactly if the request could not be sent, with a response failure exactly if the status is an error, and otherwise succeeds, exposing the Content-Length header as length if it is a valid number.", "quantifier": "every combination of transport result, status and header value", "why_tests_cant": "Covers all header strings.", "anchors": ["crates/stream-download/src/http/mod.rs: HttpStream::new", "crates/stream-download/src/http/reqwest_client.rs: content_length, into_result"]}
{"id": "C46", "title": "Registry picks the matching entry with the lowest priority number", "statement": "find_match uses the matching entry with the smallest priority; among equal priorities the one registered first; the registration order of entries with different priorities is irrelevant.", "quantifier": "every list of entries, priorities, rules and inputs", "why_tests_cant": "All orders of unbounded lists of entries.", "anchors": ["crates/stream-download/src/registry/mod.rs: Registry::entry, find_match"]}
{"id": "C47", "title": "Registry hands the handler the input without its matched prefix", "statement": "If a prefix rule matched, the handler receives the input with exactly that prefix removed once, together with the prefix; otherwise the whole input; converting it back gives the original string (for inputs the URL parser prints back unchanged).", "quantifier": "every prefix and input string, including repeated or empty prefixes", "why_tests_cant": "All strings.", "anchors": ["crates/stream-download/src/registry/matcher.rs: Rule::match_input", "crates/stream-download/src/registry/mod.rs: Input::into_raw"]}
{"id": "C48", "title": "Re-submitting a parsed input selects the same entry", "statement": "Passing the parsed input produced by a match back to the registry selects the same entry with the same input.", "quantifier": "every registry and input", "why_tests_cant": "Needs several entries whose rules overlap after the prefix is stripped.", "anchors": ["crates/stream-download/src/registry/mod.rs: find_match", "crates/stream-download/src/registry/matcher.rs: matches_parsed"]}
{"id": "C49", "title": "Rules match what they say", "statement": "any_url matches exactly the inputs that parse as URLs, any_string exactly those that do not, any_http exactly URLs with scheme http or https, url/url_scheme/url_domain/http_domain exactly URLs whose scheme and domain match; entries with no rules match nothing.", "quantifier": "every input and rule", "why_tests_cant": "All inputs.", "anchors": ["crates/stream-download/src/registry/matcher.rs: Rule, MatchType"]}
{"id": "C50", "title": "The ffmpeg command always writes to standard output last", "statement": "Whatever arguments the user adds, in whatever order, the ffmpeg command reads from the pipe first, keeps the user's arguments in order and ends with the standard-output argument.", "quantifier": "every sequence of arg and args calls", "why_tests_cant": "All call sequences.", "anchors": ["crates/stream-download/src/process/ffmpeg.rs: FfmpegConvertAudioCommand"]}
{"id": "C51", "title": "Command pipelines connect stages in order", "statement": "A pipeline of n commands spawns them in order, feeds the standard output of each into the next one's standard input, exposes the last one's output, and keeps one error file per command.", "quantifier": "every number of commands and every spawn failure point", "why_tests_cant": "All pipeline lengths and failure positions.", "anchors": ["crates/stream-download/src/process/command_builder.rs: CommandBuilder", "crates/stream-download/src/process/mod.rs: SpawnedCommand"]}
{"id": "C52", "title": "A failing subprocess is reported to the reader", "statement": "If the subprocess exits with a failure status the stream is reported as failed; a cancelled stream kills the subprocess; a completed one waits for it.", "quantifier": "every result, outcome and exit status", "why_tests_cant": "All combinations of results and exit statuses.", "anchors": ["crates/stream-download/src/process/mod.rs: ProcessStream::on_finish"]}
{"id": "C53", "title": "yt-dlp command line", "statement": "The yt-dlp command line consists of the url, the fixed streaming options, and exactly the extraction and format options that were set, in a fixed order, regardless of the order of the setter calls.", "quantifier": "every sequence of setter calls", "why_tests_cant": "All call sequences.", "anchors": ["crates/stream-download/src/process/yt_dlp.rs: YtDlpCommand"]}
{"id": "C54", "title": "OpenDAL stream delivers the object in non-empty chunks of bounded size", "statement": "Polling an OpenDAL stream to the end yields non-empty chunks of at most the chunk size whose concatenation is the requested range; a zero reported length is treated as unknown; data buffered before a seek never leaks into chunks after it.", "quantifier": "every object, chunk size, and split of the object into underlying reads", "why_tests_cant": "All read splits.", "anchors": ["crates/stream-download-opendal/src/lib.rs: OpendalStream::new, poll_next, seek_range"]}
{"id": "C55", "title": "Settings are independent and last-write-wins", "statement": "Each settings method changes only its own setting and the last call wins; getters return what was set; the documented defaults hold.", "quantifier": "every sequence of settings calls", "why_tests_cant": "All call sequences.", "anchors": ["crates/stream-download/src/settings.rs: Settings"]}
{"id": "C56", "title": "A truncated resource ends in an error", "statement": "If the server ends the resource before its declared length, the download terminates with an error instead of requesting the missing part forever.", "quantifier": "every declared length larger than the real one, every history", "why_tests_cant": "The failure is an infinite run.", "anchors": ["crates/stream-download/src/source/mod.rs: finish_or_find_next_gap"]}
{"id": "C57", "title": "A consumer's seek is always acted upon", "statement": "Every seek to a position that is not downloaded yet on a seekable source is delivered to the download task.", "quantifier": "every history of seeks and every schedule", "why_tests_cant": "The message channel must be full at the moment of the second seek.", "anchors": ["crates/stream-download/src/source/handle.rs: SourceHandle::request_seek", "crates/stream-download/src/source/mod.rs: handle_seek"]}
{"id": "C58", "title": "An available range does not block", "statement": "A read whose whole range is already downloaded when it goes to sleep is woken without waiting for another chunk from the network.", "quantifier": "every interleaving of the reader's check with the task's progress", "why_tests_cant": "The check and the request are separate steps; the task may advance in between.", "anchors": ["crates/stream-download/src/lib.rs: StreamDownload::read", "crates/stream-download/src/source/handle.rs: wait_for_position", "crates/stream-download/src/source/mod.rs: write"]}
{"id": "C59", "title": "An HTTP seek delivers the requested bytes or fails", "statement": "After a successful range request on an HTTP stream the chunks that follow are the bytes of the resource from the requested offset on; a server that cannot serve the range makes the seek fail.", "quantifier": "every resource, range, server answer and chunking", "why_tests_cant": "A test server that honours ranges never shows the difference.", "anchors": ["crates/stream-download/src/http/mod.rs: HttpStream::seek_range, supports_seek"]}
{"id": "C60", "title": "A stream over a reader delivers the reader's bytes once and never seeks", "statement": "A stream over an AsyncRead yields non-empty chunks whose concatenation is what the reader delivers, ends for good at the reader's end or first error, and rejects every seek and reconnect without touching the reader.", "quantifier": "every reader content, split into reads, error point and sequence of calls", "why_tests_cant": "All read splits and call orders.", "anchors": ["crates/stream-download/src/async_read.rs: AsyncReadStream"]}
{"id": "C61", "title": "A stream over HTTP returns the bytes of the resource", "statement": "With a server that honours valid ranges and says so, every byte a consumer of an HTTP stream reads is the byte of the resource at that position, through seeks, broken connections, reconnects and gap requests.", "quantifier": "every resource, storage, history of calls, chunking, connection failure and schedule", "why_tests_cant": "The wrong bytes need a particular layout of downloaded ranges and a server that ignores the resulting invalid header, as RFC 9110 requires.", "anchors": ["crates/stream-download/src/http/mod.rs: HttpStream::seek_range, reconnect", "crates/stream-download/src/source/mod.rs: handle_seek, finish_or_find_next_gap", "crates/stream-download/src/lib.rs: StreamDownload::read, seek"]}
{"id": "C62", "title": "Reading to the end yields exactly the resource", "statement": "If the declared length is the length of the resource and the source delivers it, then once a read of a consumer that never seeks returns fewer bytes than asked for, the bytes returned so far are exactly the resource, and later reads add nothing.", "quantifier": "every resource, storage, sequence of read sizes, chunking, connection failure, reconnect and schedule", "why_tests_cant": "An early end, a repeated part or a missing tail needs a stall or a broken connection at a particular byte.", "anchors": ["crates/stream-download/src/lib.rs: StreamDownload::read", "crates/stream-download/src/source/mod.rs: write, reconnect, finish_or_find_next_gap", "crates/stream-download/src/http/mod.rs: HttpStream::reconnect"]}
{"id": "C63", "title": "Calls return as long as the transport keeps delivering", "statement": "With fair scheduling, every read and every seek returns, whatever else happened before, as long as the transport goes on delivering chunks whenever the download waits for it.", "quantifier": "every infinite history of calls, chunkings, errors, stalls, early ends, reconnects and schedules", "why_tests_cant": "It is about what eventually happens in infinite executions.", "anchors": ["crates/stream-download/src/lib.rs: StreamDownload::read, seek", "crates/stream-download/src/source/handle.rs: wait_for_position, seek, NotifyRead", "crates/stream-download/src/source/mod.rs: write, handle_seek, handle_prefetch, finish_or_find_next_gap"]}
{"id": "C64", "title": "A stream over an object of an object store returns the bytes of the object", "statement": "Every byte a consumer of an OpenDAL stream reads is the byte of the object at that position, through seeks, errors of the store, stalls and reconnects, whatever the chunk size; and a consumer that reads to the end receives exactly the object.", "quantifier": "every object, chunk size, storage, history of calls, splitting into reads, store failure and schedule", "why_tests_cant": "The wrong bytes need a particular interleaving of seeks and chunks, or a stall at a particular byte.", "anchors": ["crates/stream-download-opendal/src/lib.rs: OpendalStream", "crates/stream-download/src/source/mod.rs: handle_seek, write, reconnect", "crates/stream-download/src/lib.rs: StreamDownload::read, seek"]}
{"id": "C65", "title": "A stream over a reader returns the reader's bytes and reports its failure", "statement": "Every byte a consumer of a stream over an AsyncRead (also the output of a process) reads is the byte the reader delivered at that position, through any seeks; a consumer that reads to the end receives everything; and if the reader fails, the consumer gets an error instead of a normal end of the stream.", "quantifier": "every reader content, error point, declared length, storage, history of calls and schedule", "why_tests_cant": "The error point and the interleaving of the failure with the reads matter.", "anchors": ["crates/stream-download/src/async_read.rs: AsyncReadStream", "crates/stream-download/src/source/mod.rs: handle_response_chunk, finish_or_find_next_gap", "crates/stream-download/src/lib.rs: StreamDownload::read, seek"]}
{"id": "C66", "title": "Creating a stream either fails with the right error and starts nothing, or starts a fresh download with the given settings", "statement": "If the source cannot be created the creation fails with the source's error and no storage is asked for; otherwise, if the storage cannot be created for the length the source reports, it fails with the storage's error; in both cases no download is started. Otherwise the stream reports the source's length, the download uses the given settings, and both the consumer and the download are at the beginning.", "quantifier": "every source, storage provider, settings and failure", "why_tests_cant": "It ranges over every source, provider and settings, including user-defined ones.", "anchors": ["crates/stream-download/src/lib.rs: StreamDownload::from_create_stream, from_stream, new, content_length, StreamInitializationError", "crates/stream-download/src/source/mod.rs: Source::new"]}
{"id": "C67", "title": "A stream made by one of the constructors delivers its resource, whatever the settings", "statement": "With any settings that the settings methods can make, a consumer that does not seek receives from a stream made for a URL, an object, a reader or a pipeline of commands a prefix of the resource, and exactly the resource once a read returns fewer bytes than asked for.", "quantifier": "every sequence of settings calls, resource, storage, sequence of reads, chunking, transport failure and schedule", "why_tests_cant": "Settings, transport failures and schedules combine.", "anchors": ["crates/stream-download/src/lib.rs: StreamDownload::new_http, new_async_read, new_process", "crates/stream-download-opendal/src/lib.rs: new_opendal, OpendalStreamParams", "crates/stream-download/src/http/mod.rs: HttpStream::new", "crates/stream-download/src/settings.rs: Settings"]}
{"id": "C68", "title": "A consumer that jumps ahead receives everything after the jump", "statement": "If a consumer seeks to a position and then reads without seeking again, then once a read returns fewer bytes than asked for, the bytes returned since the seek are exactly the resource from that position to its end, and later reads add nothing.", "quantifier": "every resource, storage, history of earlier reads and forward seeks, chunking, transport failure and schedule", "why_tests_cant": "Whether the rest is lost depends on when the download reaches the end and fills the part that was skipped, relative to the reads.", "anchors": ["crates/stream-download/src/lib.rs: StreamDownload::read, seek", "crates/stream-download/src/source/mod.rs: handle_seek, finish_or_find_next_gap", "crates/stream-download/src/storage/bounded.rs: BoundedStorageReader::read, BoundedStorageWriter::seek"]}
{"id": "C69", "title": "The processes of a stream end with it", "statement": "When the download of a stream over a pipeline of commands is over, whether it completed, failed, was cancelled or panicked, or the stream could not be created, no process that was started for it runs any more and all exit statuses were collected; cancelling or dropping the stream ends the processes; and no process is killed if the download succeeded.", "quantifier": "every pipeline, behaviour of the processes, failure of system calls, history of calls and schedule", "why_tests_cant": "A process can close its output, hang, or end at any point relative to cancellation and the end of the download.", "anchors": ["crates/stream-download/src/process/mod.rs: ProcessStream::on_finish, SpawnedCommand", "crates/stream-download/src/process/command_builder.rs: CommandBuilder::spawn", "crates/stream-download/src/source/mod.rs: download", "crates/stream-download/src/lib.rs: new_process, from_create_stream"]}
{"id": "C70", "title": "A stream over a pipeline returns the output of its last command", "statement": "Every byte a consumer of a stream over a pipeline of commands reads is the byte that the last command wrote at that position, through any seeks and whenever the processes end; and a consumer that reads to the end receives exactly that output.", "quantifier": "every output, storage, history of calls, splitting into reads, behaviour of the processes and schedule", "why_tests_cant": "The end of the process can fall at any point relative to the reads of its output.", "anchors": ["crates/stream-download/src/process/mod.rs: ProcessStream", "crates/stream-download/src/async_read.rs: AsyncReadStream", "crates/stream-download/src/lib.rs: StreamDownload::read, seek, new_process"]}
{"id": "C71", "title": "The download ends", "statement": "If the resource is finite, the transport answers every request, delivers what it was asked for and does not stop doing so, and the consumer does not keep seeking, then the download ends, whatever stalls, failures and reconnects happen in between, without the consumer having to do anything (with bounded storage: if it reads to the end).", "quantifier": "every resource, storage, infinite fair history of calls, chunking, stalls, failures and reconnects", "why_tests_cant": "It is about what happens eventually, in histories of any length.", "anchors": ["crates/stream-download/src/source/mod.rs: download, wait_for_prefetch, handle_response_chunk, finish_or_find_next_gap, seek_range, reconnect"]}
{"id": "C72", "title": "A consumer that reads to the end gets there", "statement": "Under the same assumptions a consumer that keeps reading receives the whole resource, or sees a read fail, after finitely many reads; it is never left waiting and never reads for ever.", "quantifier": "every resource, storage, sequence of non-empty buffers, infinite fair history, chunking, stalls, failures and reconnects", "why_tests_cant": "It is about what happens eventually, in histories of any length.", "anchors": ["crates/stream-download/src/lib.rs: StreamDownload::read, handle_read, wait_for_position", "crates/stream-download/src/source/mod.rs: download, finish_or_find_next_gap"]}
{"id": "C73", "title": "Delays of the processor do not show", "statement": "On a processor that makes stores visible to other threads late (x86), every sequence of results of calls is one that is possible without such delays, and no call sleeps for ever because of a delay.", "quantifier": "every storage, history of calls, chunking, failure, schedule and delay of stores", "why_tests_cant": "A test machine rarely delays a store across the few instructions that matter.", "anchors": ["crates/stream-download/src/source/handle.rs: RequestedPosition, SourceHandle::request_position, NotifyRead::notify_waiting, request_write", "crates/stream-download/src/source/mod.rs: write_batched, notify_position_reached", "crates/stream-download/src/lib.rs: handle_read, wait_for_position"]}
{"id": "C74", "title": "A shutdown of the runtime does not corrupt or hang the reader", "statement": "If the asynchronous runtime that runs the download is shut down while the consumer, in another thread, goes on: no call returns wrong data, everything that was downloaded before can still be read without waiting, calls that would have to wait for more return with an error, and waiting for completion returns.", "quantifier": "every storage, moment of the shutdown, history of calls before and after it, chunking, failure and schedule", "why_tests_cant": "The shutdown can hit the task at any of its awaits, and tests do not shut the runtime down under a reader.", "anchors": ["crates/stream-download/src/lib.rs: from_create_stream, StreamHandle::wait_for_completion, handle_read, handle_seek", "crates/stream-download/src/source/handle.rs: PositionReached, SourceHandle::request_seek", "crates/stream-download/src/source/mod.rs: download"]}
{"id": "C75", "title": "A cancelled download ends", "statement": "After the download was cancelled (with cancel_download, the token, or by dropping the stream if it is configured so), the download task ends, and every read and seek returns, whatever the transport does from then on: deliver for ever, stall, fail or never answer; a process that was started for the stream is ended as well.", "quantifier": "every storage, infinite fair history of calls before and after the cancellation, chunking, stall, failure and reconnect", "why_tests_cant": "It is about what happens eventually, for a transport that may hang at any point relative to the cancellation.", "anchors": ["crates/stream-download/src/lib.rs: StreamDownload::cancel_download, cancellation_token, drop", "crates/stream-download/src/source/mod.rs: download, handle_reconnect, seek", "crates/stream-download/src/process/mod.rs: ProcessStream::on_finish"]}
{"id": "C76", "title": "A read fails only for a reason", "statement": "As long as nobody cancels the download, no request for a range fails and on_finish does not report an error, no read of a consumer that does not seek fails, if its buffer is not longer than the capacity of the storage, whatever chunks, errors, stalls, early ends and reconnects the transport produces.", "quantifier": "every resource, storage, sequence of buffers, chunking, stall, failure, reconnect and schedule", "why_tests_cant": "A read can meet the download at any point: in a gap, in a retry, in the last chunk, or after its end.", "anchors": ["crates/stream-download/src/lib.rs: StreamDownload::read, handle_read, wait_for_position", "crates/stream-download/src/source/mod.rs: download, write_batched, finish_or_find_next_gap", "crates/stream-download/src/storage/bounded.rs: BoundedStorageReader::read"]}
{"id": "C77", "title": "A download without seeks asks for no ranges", "statement": "If the consumer does not seek and the transport ends only at the end of the resource, the source is never asked to seek (SourceStream::seek_range is not called), whatever errors, stalls and reconnects happen.", "quantifier": "every resource, storage, sequence of buffers, chunking, stall, failure, reconnect and schedule", "why_tests_cant": "A gap could be seen at the end of the stream in some rare chunking or after a reconnect.", "anchors": ["crates/stream-download/src/source/mod.rs: finish_or_find_next_gap, handle_seek, handle_reconnect", "crates/stream-download/src/lib.rs: handle_read"]}
{"id": "C78", "title": "Storage that fails", "statement": "If reads, writes or seeks of the storage fail at some point (disk full, I/O errors), the reads that succeed still return the bytes of the resource at their position, and a read that failed can be repeated without losing or duplicating bytes; a failure never looks like the end of the stream. A write that fails ends the download: it is marked as failed with that error and a waiting consumer is released. Nobody is left waiting because of a failure.", "quantifier": "every sequence of failures of storage operations, every storage strategy, history and schedule", "why_tests_cant": "tests with a storage that fails cover a few places of failure; that no place of failure leaves a consumer waiting, or makes a later read return bytes that were never received, depends on all of them and on the schedule", "anchors": ["crates/stream-download/src/lib.rs: StreamDownload::read, seek, handle_read", "crates/stream-download/src/source/mod.rs: download, write_batched, write, seek", "crates/stream-download/src/storage/mod.rs: StorageReader, StorageWriter"]}
{"id": "C79", "title": "Weakly ordered memory does not show", "statement": "On processors and with compilers that order memory accesses only as far as the program asks for it (ARM; the memory model of the language), every sequence of results of calls is one that is possible without delays, and no call sleeps for ever because a store becomes visible late.", "quantifier": "every storage, history of calls, chunking, failure, schedule and moment at which a store becomes visible", "why_tests_cant": "Tests run on few machines, mostly x86, and a late store must fall between a few instructions.", "anchors": ["crates/stream-download/src/source/handle.rs: RequestedPosition, SourceHandle::request_position, request_seek, NotifyRead::notify_waiting", "crates/stream-download/src/source/mod.rs: write_batched, notify_position_reached", "crates/stream-download/src/lib.rs: handle_read, wait_for_position"]}
{"id": "C80", "title": "Short transfers of the storage do no harm", "statement": "If the storage takes only part of what is written to it, or returns only part of what is read from it (at least one byte each), the reads still return the bytes of the resource at their position; a read returns nothing only at the end of the resource, so that a consumer that reads until nothing comes receives exactly the resource; the download ends and no call hangs. Bounded storage passes no short transfer of the storage below on to the consumer.", "quantifier": "every storage, sequence of amounts that the storage transfers, history of calls, chunking, failure and schedule", "why_tests_cant": "Files and memory hardly ever make short transfers in tests, and code that ignores the returned count works until they do.", "anchors": ["crates/stream-download/src/source/mod.rs: write_batched, write", "crates/stream-download/src/lib.rs: StreamDownload::read, handle_read", "crates/stream-download/src/storage/mod.rs: StorageReader, StorageWriter", "crates/stream-download/src/storage/bounded.rs: BoundedStorageReader::read, BoundedStorageWriter::write"]}
{"id": "C81", "title": "Silent sources are reconnected after the retry timeout, and only those", "statement": "If no data arrives for longer than Settings::retry_timeout, a reconnect is attempted, and attempted again as long as the silence lasts. A source that does deliver is never reconnected before it has been silent for that long.", "quantifier": "every storage, history of calls, source, timing of chunks, errors, seeks, reconnect attempts and schedule", "why_tests_cant": "Tests use one timing; an early or a missing reconnect depends on when chunks, seeks, errors and pauses fall relative to the timer.", "anchors": ["crates/stream-download/src/source/mod.rs: download_inner, handle_reconnect, seek", "crates/stream-download/src/settings.rs: Settings::retry_timeout"]}
{"id": "C82", "title": "Connections that break off do no harm as long as they get somewhere", "statement": "If the length of the resource is known and the source can be asked for a part of it, then connections may end early, any number of times and at any byte, without anyone noticing: what is missing is asked for, and as long as bytes go on arriving, the download ends, every call returns, and a consumer that reads to the end receives exactly the resource.", "quantifier": "every resource of known length, storage, sequence of places where connections end, errors, reconnects and schedule; for the end of the download also every history of calls with finitely many seeks", "why_tests_cant": "Tests break one connection at one place; the gap that is asked for next depends on everything that was received before, and the claim is about arbitrarily many breaks.", "anchors": ["crates/stream-download/src/source/mod.rs: handle_prefetch, handle_bytes, finish_or_find_next_gap, seek", "crates/stream-download/src/lib.rs: StreamDownload::read", "crates/stream-download/src/http/mod.rs: HttpStream::seek_range"]}
{"id": "C83", "title": "How often the source is asked for a range", "statement": "The number of requests for a range is bounded by what the consumer and the connection do: at most two for every seek of the consumer (one for the position it wants, one for the gap that it leaves behind) and one for every connection that breaks off before its end. Without seeks and broken connections there is none; without a known length there is at most one for every seek. (Reconnects after retry_timeout are counted elsewhere, C81.)", "quantifier": "every history of calls, chunks, errors, ends, reconnects and schedules", "why_tests_cant": "Tests count the requests of one scenario; a loop of requests, or requests for parts that were already received, can hide in any interleaving of seeks, gaps and ends.", "anchors": ["crates/stream-download/src/source/mod.rs: seek, finish_or_find_next_gap, handle_prefetch, handle_bytes", "crates/stream-download/src/lib.rs: StreamDownload::seek", "crates/stream-download/src/http/mod.rs: HttpStream::seek_range"]}
{"id": "C84", "title": "Nothing is downloaded twice", "statement": "A byte of the resource that was received is not received again: over all connections together, the positions of received bytes are different, so that no more bytes are transferred than the resource has.", "quantifier": "every history of reads, seeks, chunks, errors, broken connections, reconnects and schedules", "why_tests_cant": "Traffic is not visible in the results of calls; a test would have to count bytes for every order of seeks, gaps, breaks and stalls.", "anchors": ["crates/stream-download/src/source/mod.rs: seek, handle_reconnect, finish_or_find_next_gap, handle_prefetch, handle_bytes", "crates/stream-download/src/http/mod.rs: HttpStream::seek_range, HttpStream::reconnect"]}
{"id": "C85", "title": "Streams over temporary files do not disturb one another and leave nothing behind", "statement": "Any number of streams over temporary files, also from one provider, get from their storage what each would get from a file of its own, even if other programs remove the file's name. The file is where the provider was told to put it. Its name exists only as long as the reader does, its space is free once reader and download task are gone, and no other file is changed or removed.", "quantifier": "every number of streams, provider options, and interleaving of their creation, operations and dropping with what other programs do on the disk", "why_tests_cant": "A test runs a few streams on a quiet disk; clashes need a particular interleaving of creations, removals by cleaners and drops.", "anchors": ["crates/stream-download/src/storage/temp.rs: TempStorageProvider, TempStorageProvider::into_reader_writer, TempStorageReader"]}
{"id": "C86", "title": "Default middleware sees every request of the streams made after it was added", "statement": "Each request that a stream makes (for the resource, for a range, when reconnecting) passes once through every middleware that was added with add_default_middleware before the stream's client was made, in the order of addition, and through none that was added later; middleware that only watches changes nothing for the stream.", "quantifier": "every history of additions and clients, every server, and every sequence of calls of a stream", "why_tests_cant": "The list is global state of the process; a test sees one order of additions and clients.", "anchors": ["crates/stream-download/src/http/reqwest_middleware_client.rs: add_default_middleware, ClientWithMiddleware::create, get, get_range", "crates/stream-download/src/settings.rs: Settings::add_default_middleware", "crates/stream-download/src/http/mod.rs: HttpStream::new, HttpStream::seek_range, HttpStream::reconnect"]}
{"id": "C87", "title": "A stream without end never runs dry", "statement": "A consumer that keeps reading from a source that never ends and declares no length (a radio station) receives any number of its bytes, in order and without a gap, however small the storage is, as long as the source goes on delivering; stalls, errors and reconnects in between do no harm.", "quantifier": "every schedule of the task and the consumer, every sequence of chunks, stalls, errors and reconnects, every storage, every buffer that fits, every number of bytes up to the range of u64", "why_tests_cant": "A test runs for a limited time; a lost wakeup or a wrapped counter may show only after any number of bytes.", "anchors": ["crates/stream-download/src/source/mod.rs: Source::download, Source::handle_bytes, Source::write", "crates/stream-download/src/lib.rs: StreamDownload::read", "crates/stream-download/src/storage/bounded.rs: BoundedStorageReader::read, BoundedStorageWriter::write"]}
{"id": "C88", "title": "No HTTP server can make the stream panic or hang", "statement": "Whatever an HTTP server answers - ranges ignored, other bytes than were asked for, too many or too few, error pages, bodies that break off, differently each time - the download task does not panic, calls return as long as bytes of any kind arrive, a cancelled download ends, a range is asked for at most once for each seek and each body that ends, and what is stored is what was received, in order.", "quantifier": "every server, every sequence of its answers, every schedule and every history of calls", "why_tests_cant": "A server that misbehaves can do so in any number of ways at any moment; tests use servers that work.", "anchors": ["crates/stream-download/src/source/mod.rs: Source::download, Source::seek, Source::finish_or_find_next_gap", "crates/stream-download/src/http/mod.rs: HttpStream::seek_range, HttpStream::reconnect, HttpStream::poll_next"]}
{"id": "C89", "title": "The consumer reads what was received, in order", "statement": "Whatever the source delivers - wrong bytes, too many, a connection resumed at the wrong place - a consumer that does not seek has read the first bytes that were received, in the order in which they arrived: none lost, repeated, altered or made up. If the source cannot seek, a read at a position returns the bytes received after that many others, however the consumer seeks.", "quantifier": "every source and every sequence of its answers, every schedule, every storage and every history of reads", "why_tests_cant": "Whether the buffering between the source and the consumer is faithful depends on how chunks, partial writes, evictions, stalls and reads interleave; a test compares one interleaving with one known file.", "anchors": ["crates/stream-download/src/source/mod.rs: Source::handle_chunk, Source::write, Source::reconnect", "crates/stream-download/src/lib.rs: StreamDownload::read", "crates/stream-download/src/storage: StorageReader, StorageWriter"]}
{"id": "C90", "title": "No source can make the stream panic, hang or mix up bytes", "statement": "Users may write their own sources. Whatever such a source does - any bytes, any errors, ends of stream anywhere, ranges answered with something else, reconnects that fail - as long as its chunks are not empty, nothing follows the end of a stream that was not asked for, and its methods do not panic: the download task does not panic, calls return while bytes of any kind arrive, a cancelled download ends, a range is asked for at most once for each seek and each end of stream, and a consumer that does not seek reads what was received, in order, and is given less than it asked for, or an end of file, only at the declared length or after the source ended its stream, when it has everything that was received.", "quantifier": "every implementation of the source trait, every schedule and every history of calls", "why_tests_cant": "The trait is public: its implementations are not known when the library is tested.", "anchors": ["crates/stream-download/src/source/mod.rs: SourceStream, Source::download, Source::seek, Source::reconnect, Source::finish_or_find_next_gap"]}
{"id": "C91", "title": "Reading and seeking do not panic", "statement": "A call to read or seek returns a value or an error; it does not panic and so does not unwind the consumer's thread, whatever the source or the server delivers.", "quantifier": "every source and every sequence of its answers, every storage, every schedule and every history of reads and seeks, with positions and buffers below 2^63", "why_tests_cant": "A slice out of bounds or an overflow needs a particular position, amount of stored data and call; a test tries a few.", "anchors": ["crates/stream-download/src/lib.rs: StreamDownload::read, StreamDownload::seek, StreamDownload::get_absolute_seek_position", "crates/stream-download/src/storage/memory.rs: MemoryStorage::read", "crates/stream-download/src/storage/bounded.rs: BoundedStorageReader::read, BoundedStorageReader::seek"]}
