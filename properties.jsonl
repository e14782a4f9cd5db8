{"id": "C01", "title": "Chunk numbering is a bijection", "statement": "The chunk ids 0 .. numberOfChunks()-1 and the chunk grid coordinates (every component below chunksPerDimension()) are in one-to-one correspondence: converting an id to a coordinate and back gives the id, converting an in-grid coordinate to an id and back gives the coordinate, and the id of an in-grid coordinate is below numberOfChunks().", "quantifier": "every number of dimensions >= 1, every shape, every chunk shape with positive entries, every id / coordinate", "why_tests_cant": "holds for all shapes and dimensions; an off-by-one only shows for particular remainders", "anchors": ["include/z5/util/blocking.hxx: blockIdToBlockCoordinate, blockCoordinatesToBlockId, init"]}
{"id": "C02", "title": "The chunks tile the array exactly", "statement": "Every element coordinate inside the dataset shape lies in exactly one chunk of the grid, namely the one returned by coordinateToBlockCoordinate; chunk extents reported for a chunk are positive, never exceed the default chunk shape, never reach outside the dataset, and the chunk handle's bounded shape agrees with the chunking's extent.", "quantifier": "every shape, every positive chunk shape, every element coordinate, every chunk", "why_tests_cant": "quantifies over all remainders of shape modulo chunk shape in every dimension", "anchors": ["include/z5/util/blocking.hxx: getBlockBeginAndShape, getBlockBeginAndEnd, coordinateToBlockCoordinate", "include/z5/handle.hxx: Chunk::computeBoundedShape"]}
{"id": "C03", "title": "The chunks visited for a region are exactly the overlapping ones", "statement": "For a valid non-empty request, the list of chunks processed contains each chunk that shares at least one element with the request exactly once and no other chunk.", "quantifier": "every shape, chunk shape, valid request offset and shape", "why_tests_cant": "boundary coincidences (request end on a chunk boundary) in each of arbitrarily many dimensions", "anchors": ["include/z5/util/blocking.hxx: getBlocksOverlappingRoi", "include/z5/util/util.hxx: makeRegularGrid"]}
{"id": "C04", "title": "Chunk/request intersection is exact", "statement": "For every overlapping chunk the triple (offset in request, shape, offset in chunk) describes exactly the intersection of chunk and request, and 'complete overlap' is reported iff the chunk lies inside the request.", "quantifier": "every shape, chunk shape, request and overlapping chunk; false beyond 2^31-1 elements per axis because differences are squeezed through int", "why_tests_cant": "tests never allocate requests with extents near 2^31", "anchors": ["include/z5/util/blocking.hxx: getCoordinatesInRoi"]}
{"id": "C05", "title": "Requests are accepted iff they lie inside the dataset", "statement": "readSubarray/writeSubarray/writeScalar accept a request iff it has the dataset's dimension, no zero extent and offset+shape <= dataset shape in every dimension; a rejected request changes nothing.", "quantifier": "every offset and shape vector of machine words (false when offset+shape wraps modulo 2^64)", "why_tests_cant": "the wrap-around corner is not reachable by ordinary test values", "anchors": ["include/z5/dataset.hxx: Dataset::checkRequestShape", "include/z5/multiarray/array_access.hxx: readSubarray, writeSubarray", "include/z5/multiarray/broadcast.hxx: writeScalar"]}
{"id": "C06", "title": "Strided copy is exact and confined", "statement": "Copying between two views sets every destination element addressed by the destination view to the corresponding source element, changes nothing else, and never touches memory outside the two buffers when the views fit.", "quantifier": "every dimension, shape, stride vectors, offsets, buffers", "why_tests_cant": "all layouts (contiguous run, strided, zero extents, 0-d) and all sizes", "anchors": ["include/z5/multiarray/array_util.hxx: copyView", "include/z5/multiarray/array_view.hxx: subview, cOrderStrides, makeView"]}
{"id": "C07", "title": "Scalar fill is exact and confined", "statement": "Filling a view sets exactly the addressed elements to the value and changes nothing else, within bounds.", "quantifier": "every dimension, shape, strides, offset, buffer, value", "why_tests_cant": "all layouts and sizes", "anchors": ["include/z5/multiarray/array_util.hxx: fillView"]}
{"id": "C08", "title": "Read returns what was written (zarr)", "statement": "After any history of successful region writes, scalar writes and chunk writes to an unsharded zarr dataset, reading any valid region returns for every element the value of the last write covering it, or the fill value if none did.", "quantifier": "every history, dataset shape, chunk shape, dtype, codec satisfying decompress(compress x)=x, request", "why_tests_cant": "unbounded histories and overlapping partial-chunk writes", "anchors": ["include/z5/multiarray/array_access.hxx: readSubarrayPlain, writePlainGeneric, prepareChunkWriteBuffer", "include/z5/generic/dataset.hxx: writeChunk, readChunk", "include/z5/util/format_data.hxx: data_to_buffer, buffer_to_data"]}
{"id": "C09", "title": "Read returns what was written (N5)", "statement": "The same for N5 datasets, whose edge chunks are stored clipped with a big-endian header and byte-swapped payload.", "quantifier": "every history, dataset shape, chunk shape below 2^32 per axis, fewer than 2^16 dimensions, dtype, codec, request", "why_tests_cant": "unbounded histories; clipped edge chunks in every dimension", "anchors": ["include/z5/util/format_data.hxx: data_to_n5_format, write_n5_header, read_n5_header, buffer_to_data", "include/z5/multiarray/array_access.hxx"]}
{"id": "C10", "title": "Read returns what was written (sharded zarr v3)", "statement": "The same for sharded datasets, where a write rebuilds one shard file per touched shard.", "quantifier": "every history, shape, chunk shape, shard shape that is a multiple of it, dtype, codec, request", "why_tests_cant": "unbounded histories over shards with arbitrary slot subsets present", "anchors": ["include/z5/multiarray/array_access.hxx: writeShardedGeneric, readSubarraySharded", "include/z5/generic/sharded_dataset.hxx: readShardBlobs, writeShardBlobs, writeInnerBlob", "include/z5/util/sharding.hxx"]}
{"id": "C11", "title": "Region writes leave everything outside the region unchanged", "statement": "A successful region or scalar write changes no element outside the requested region: reading any element not covered gives the same value before and after, and the stored object of a chunk not overlapping the region is untouched.", "quantifier": "every store state reachable by writes, request, data", "why_tests_cant": "needs all positions of region relative to chunk boundaries", "anchors": ["include/z5/multiarray/array_access.hxx: prepareChunkWriteBuffer, writePlainGeneric, writeShardedGeneric"]}
{"id": "C12", "title": "Never-written elements read as the fill value; all-fill chunks need no storage", "statement": "Elements never covered by a write read as the fill value. Writing a chunk whose elements all equal the fill value stores no object (removing an existing one), and later reads and partial writes cannot tell.", "quantifier": "every dataset, chunk content, later operation; == on the element type need not be reflexive (NaN)", "why_tests_cant": "interaction of elision with every later operation", "anchors": ["include/z5/util/format_data.hxx: data_to_buffer", "include/z5/generic/dataset.hxx: writeChunk", "include/z5/multiarray/array_access.hxx"]}
{"id": "C13", "title": "Reads do not depend on thread count or schedule", "statement": "For a well-formed store, readSubarray produces the same output for every number of threads, every assignment of chunks to threads, every interleaving, and whatever the reused per-thread buffers contain.", "quantifier": "every interleaving of the per-chunk (per-shard) tasks and every content of the scratch buffers", "why_tests_cant": "schedules cannot be enumerated by tests", "anchors": ["include/z5/multiarray/array_access.hxx: forEachBuffered, forEachWithState, readSubarrayPlain, readSubarraySharded"]}
{"id": "C14", "title": "Writes do not depend on thread count or schedule", "statement": "For a well-formed store, writeSubarray/writeScalar leave the same store for every number of threads, assignment, interleaving and scratch content.", "quantifier": "every interleaving of the per-chunk (per-shard) tasks", "why_tests_cant": "schedules cannot be enumerated by tests", "anchors": ["include/z5/multiarray/array_access.hxx: writePlainGeneric, writeShardedGeneric, groupChunksByShard"]}
{"id": "C15", "title": "Concurrent calls on different chunks commute; on the same chunk they may lose updates", "statement": "Concurrent region writes whose requests touch disjoint sets of stored objects (chunks; shards if sharded) end in the same store as running them one after the other. (Two writes to disjoint regions inside one chunk can lose one of them: the negation is proved with a witness.)", "quantifier": "every pair of writes, every interleaving of their store accesses", "why_tests_cant": "race windows", "anchors": ["include/z5/multiarray/array_access.hxx: writePlainGeneric, writeShardedGeneric"]}
{"id": "C16", "title": "Concurrent sharded chunk writes are never lost", "statement": "Any number of concurrent writeChunk/removeChunk calls on one sharded dataset object end in a state equal to executing them in some sequential order, in particular no inner chunk of the same shard is lost. (Mixing writeChunk with writeSubarray on the same shard is not covered by the mutex and can lose an update: negation proved.)", "quantifier": "every number of threads, every interleaving of lock, shard read, shard write and unlock", "why_tests_cant": "race windows", "anchors": ["include/z5/generic/sharded_dataset.hxx: writeInnerBlob, shardMutex_, writeShardBlobs"]}
{"id": "C17", "title": "Shard files round-trip", "statement": "Parsing a shard built from per-slot blobs returns exactly these blobs (empty slots stay empty) and the index is accepted.", "quantifier": "every list of blobs with total size below 2^64-1", "why_tests_cant": "all slot subsets, sizes", "anchors": ["include/z5/util/sharding.hxx: buildShard, parseShardIndex, extractShardBlobs"]}
{"id": "C18", "title": "Parsing an arbitrary shard file is memory safe", "statement": "For any bytes whatsoever, parsing the index either rejects the file or yields entries whose byte ranges lie inside the data region, so extracting or decoding any slot never reads out of bounds. The files that are accepted, and the entries returned, are exactly characterised. (An entry with one all-ones field counts as empty: counterexample to the documented format.)", "quantifier": "every byte string, every number of slots", "why_tests_cant": "adversarial files", "anchors": ["include/z5/util/sharding.hxx: parseShardIndex, extractShardBlobs", "include/z5/generic/sharded_dataset.hxx: readRawChunk, readShardRaw"]}
{"id": "C19", "title": "Corruption of the shard index is detected", "statement": "If the index of a valid shard (index bytes or stored checksum) is altered in any way confined to one window of at most 32 consecutive bits of the index, or only in the checksum, the shard is rejected instead of being misread; a truncated file is never silently read as a different valid set of blobs of the same slot count unless its tail passes the CRC.", "quantifier": "every shard, every burst error of at most 32 bits", "why_tests_cant": "2^32 patterns times all positions", "anchors": ["include/z5/util/crc32c.hxx: crc32c", "include/z5/util/sharding.hxx: parseShardIndex"]}
{"id": "C20", "title": "The table-driven checksum is CRC-32C", "statement": "The table-driven loop computes the bit-serial CRC-32C (reflected polynomial 0x82F63B78, init and final xor all-ones) of every byte string, and continuing from a previous checksum equals checksumming the concatenation.", "quantifier": "every byte string, every split", "why_tests_cant": "all inputs", "anchors": ["include/z5/util/crc32c.hxx: table, crc32c"]}
{"id": "C21", "title": "Every inner chunk has its own slot", "statement": "The map from inner chunk coordinate to (shard coordinate, slot number) is injective, the slot is below the number of slots, and every (shard, slot) pair is hit by exactly one inner chunk coordinate.", "quantifier": "every dimension, chunks-per-shard vector with positive entries, coordinate", "why_tests_cant": "all coordinates", "anchors": ["include/z5/util/sharding.hxx: shardId, shardSlot, chunksPerShard, numShardSlots"]}
{"id": "C22", "title": "N5 chunk headers round-trip", "statement": "Reading the header written for a chunk gives back the varlen flag, number of elements and header length, and the shape with axis order restored, provided the shape fits the header's 16/32-bit fields; otherwise the header silently truncates (negation proved).", "quantifier": "every shape, varlen flag and length", "why_tests_cant": "field-width limits", "anchors": ["include/z5/util/format_data.hxx: write_n5_header, read_n5_header", "include/z5/filesystem/store.hxx: readShapeFromHeader, readVarlenFromHeader"]}
{"id": "C23", "title": "Parsing an arbitrary N5 header is memory safe", "statement": "For any bytes, header parsing either throws or yields a header length not exceeding the buffer; the decompression into the read buffer of readSubarray never exceeds it. (readChunk trusts the element count in the header and can overflow the caller's buffer: negation proved, including a partial write onto a full-size stored edge chunk.)", "quantifier": "every byte string", "why_tests_cant": "adversarial files", "anchors": ["include/z5/util/format_data.hxx: read_n5_header, buffer_to_data, decompress", "include/z5/multiarray/array_access.hxx: readSubarrayPlain"]}
{"id": "C24", "title": "Byte swapping is an involution", "statement": "Reversing endianness twice is the identity, it reverses exactly the bytes of each element and keeps element order.", "quantifier": "every element type width and every buffer", "why_tests_cant": "all values", "anchors": ["include/z5/util/util.hxx: reverseEndiannessInplace"]}
{"id": "C25", "title": "Different chunks never share a storage key", "statement": "Within a dataset, different in-grid chunk coordinates have different storage keys, no chunk key equals a metadata file name, and no chunk key is a path-prefix (directory) of another. The key is the decimal coordinates joined by '/' in reverse axis order for N5, joined by the delimiter for zarr v2, and prefixed by 'c' and delimiters for the zarr v3 default encoding.", "quantifier": "every dimension, coordinate pair, format, encoding and delimiter that contains a non-digit (false for an empty or all-digit delimiter)", "why_tests_cant": "all coordinates and delimiters", "anchors": ["include/z5/handle.hxx: Chunk::getChunkKey", "include/z5/util/util.hxx: join"]}
{"id": "C26", "title": "Zarr v2 metadata round-trips", "statement": "Serialising dataset metadata to .zarray JSON and parsing it gives back dtype, shape, chunks, compressor, compressor settings (except the number of blosc threads, which the format does not hold), fill value and delimiter.", "quantifier": "every zarr v2 metadata record accepted by the serialiser", "why_tests_cant": "all combinations of dtype/compressor/options", "anchors": ["include/z5/metadata.hxx: toJsonZarr, fromJsonZarr, checkJson", "include/z5/types/types.hxx"]}
{"id": "C27", "title": "N5 metadata round-trips", "statement": "Serialising to attributes.json and parsing it gives back dtype, shape and block size (reversed on disk), compressor and settings. (The fill value is always 0 after reopening, so a non-zero fill value is lost; zlib encoding becomes gzip: negations proved.)", "quantifier": "every N5 metadata record accepted by the serialiser", "why_tests_cant": "all combinations", "anchors": ["include/z5/metadata.hxx: toJsonN5, fromJsonN5", "include/z5/types/types.hxx"]}
{"id": "C28", "title": "Zarr v3 metadata round-trips and reopening uses the same chunk keys", "statement": "Serialising to zarr.json and parsing gives back dtype, shape, chunk and shard shape, codec and its settings as far as v3 can express them, key encoding and delimiter; and the chunk-key configuration obtained when the dataset is opened is the one it was created with, so reopened datasets find every chunk. (zlib encoding becomes gzip; a fill value outside 64 bits is undefined behaviour: negations proved.)", "quantifier": "every zarr v3 metadata record accepted by the serialiser", "why_tests_cant": "all combinations, sharded or not", "anchors": ["include/z5/metadata.hxx: toJsonV3, fromJsonV3", "include/z5/factory.hxx: getZarrChunkConfig, openDataset"]}
{"id": "C29", "title": "User attributes behave like a map", "statement": "Over any history of attribute writes and removals on a node, reading attributes yields the key-value map obtained by applying the updates in order; no other file changes, and dataset metadata stored in the same document is unchanged, so the dataset opens as before.", "quantifier": "every history, zarr v2 / zarr v3 / n5, every JSON value", "why_tests_cant": "unbounded histories", "anchors": ["include/z5/generic/attributes.hxx", "include/z5/attributes.hxx", "include/z5/filesystem/attributes.hxx"]}
{"id": "C30", "title": "N5 dataset metadata cannot be altered or seen through the attribute API", "statement": "Attribute writes and removals on an N5 dataset that name a metadata key throw without changing anything, and such keys never appear in the attributes read. The version of an N5 container cannot be changed through its file handle. (A group handle opened on the path of a dataset is not protected: negation proved.)", "quantifier": "every history and JSON object", "why_tests_cant": "unbounded histories", "anchors": ["include/z5/attributes.hxx: protectN5DatasetAttributes, hideN5DatasetAttributes"]}
{"id": "C31", "title": "Read-only handles never modify storage", "statement": "No operation through a handle opened in mode r performs a store modification: chunk, region and scalar writes, chunk removal, attribute writes, creation and removal all throw and leave the store unchanged.", "quantifier": "every operation, argument and store state", "why_tests_cant": "all operations x states", "anchors": ["include/z5/util/file_mode.hxx", "include/z5/generic/dataset.hxx", "include/z5/generic/sharded_dataset.hxx", "include/z5/filesystem/handle.hxx", "include/z5/attributes.hxx"]}
{"id": "C32", "title": "Chunk access outside the grid is rejected", "statement": "writeChunk and readChunk with an index vector of the right length that is outside the grid throw and change nothing. (A too short index vector is undefined behaviour, sharded readChunk does not check: negations proved.)", "quantifier": "every index vector, dataset and store state", "why_tests_cant": "all index vectors", "anchors": ["include/z5/generic/dataset.hxx: checkChunk, readChunk, writeChunk", "include/z5/generic/sharded_dataset.hxx: readChunk, checkChunk", "include/z5/handle.hxx: computeBoundedShape"]}
{"id": "C33", "title": "Reading a missing chunk fails loudly", "statement": "readChunk on a chunk that has not been written throws, whatever the buffer contains, and changes nothing in the store (plain datasets). (Sharded readChunk with raw compression returns success without touching the buffer: negation proved.)", "quantifier": "every in-grid index and store state", "why_tests_cant": "all states", "anchors": ["include/z5/generic/dataset.hxx: readChunk", "include/z5/generic/sharded_dataset.hxx: readChunk, readRawChunk"]}
{"id": "C34", "title": "Chunk-level and region-level access agree", "statement": "For every written chunk, readChunk returns the same values as readSubarray over the chunk's extent; chunkExists is true iff the chunk holds an element different from the fill value.", "quantifier": "every reachable store and chunk", "why_tests_cant": "all reachable states", "anchors": ["include/z5/generic/dataset.hxx: readChunk, chunkExists", "include/z5/multiarray/array_access.hxx: readSubarrayPlain"]}
{"id": "C35", "title": "removeTrivialChunks removes exactly the constant chunks", "statement": "removeTrivialChunks removes exactly the stored chunks whose stored elements are all one value (the given value, if one is given) and touches nothing else, for every thread count and schedule; with value = fill value it never changes what reads return. (Without a value, reads change; on a sharded dataset it holds with one thread, and with several threads the call can fail: both negations proved.)", "quantifier": "every reachable store, thread count and schedule", "why_tests_cant": "all states and schedules", "anchors": ["include/z5/util/functions.hxx: removeTrivialChunks, prepareChunkReadBuffer"]}
{"id": "C36", "title": "unique / uniqueWithCounts are schedule independent and complete", "statement": "unique returns exactly the values occurring in stored chunks and uniqueWithCounts their number of occurrences, independent of thread count and schedule. (For zarr edge chunks the padding outside the array is counted too: negation of 'only values of the array' proved.)", "quantifier": "every reachable store, thread count and schedule", "why_tests_cant": "all states and schedules", "anchors": ["include/z5/util/functions.hxx: unique, uniqueWithCounts"]}
{"id": "C37", "title": "Parallel loops run every index exactly once", "statement": "parallel_foreach with any number of threads returns only after all calls of the body that were begun have finished. If it returns normally, the body was called exactly once for every index in [0,n), with thread ids below max(1, number of threads). In any case no index is passed twice. If calls throw, it throws the exception of the smallest failing index, and all smaller indices were called and returned normally. (Calls after the failing one in the same batch are skipped: negation of 'exactly once' with exceptions proved.)", "quantifier": "every n, thread count, schedule of the worker threads and set of failing indices", "why_tests_cant": "schedules", "anchors": ["include/z5/util/threadpool.hxx: parallel_foreach_impl, parallel_foreach_single_thread, getFutures, enqueueReturning, ThreadPool::init"]}
{"id": "C38", "title": "The thread pool neither loses nor duplicates tasks", "statement": "In every schedule, each task enqueued before shutdown is executed at most once, in FIFO dequeue order, and if the pool is not stopped while tasks remain every task is eventually executed as long as workers run: whenever a task is queued and not all workers are busy, some worker step is enabled.", "quantifier": "every number of workers, task sequence and interleaving", "why_tests_cant": "schedules", "anchors": ["include/z5/util/threadpool.hxx: ThreadPool::init, enqueueReturning, ~ThreadPool"]}
{"id": "C39", "title": "A crash during a write damages at most the chunk being written", "statement": "If the process dies at any point of a region write, every stored object other than those already completely rewritten or the single one in progress per thread is unchanged, and completely processed chunks hold their new content.", "quantifier": "every crash point of every region write, every torn prefix of the file being written", "why_tests_cant": "crash points", "anchors": ["include/z5/filesystem/store.hxx: writeFile, write", "include/z5/multiarray/array_access.hxx: writePlainGeneric"]}
{"id": "C40", "title": "A torn shard or N5 header is never silently misread", "statement": "A shard file torn at any length during rebuild that is read afterwards either is rejected or passes the CRC over its last bytes; a torn N5 chunk shorter than its header is rejected. (A torn raw zarr chunk is silently accepted and the missing tail shows stale buffer content: negation proved.)", "quantifier": "every prefix length", "why_tests_cant": "all crash points", "anchors": ["include/z5/util/format_data.hxx: decompress, read_n5_header", "include/z5/util/sharding.hxx: parseShardIndex"]}
{"id": "C41", "title": "Varlen chunks round-trip (N5)", "statement": "A variable-length chunk written with n elements is reported as varlen with length n, reads back exactly these n elements, and a region read that overlaps it throws instead of returning wrong data; a region write that overlaps it partially throws and leaves it as it was if n does not exceed the size of a regular chunk; writing length 0 removes the chunk; zarr datasets reject varlen writes. (If n exceeds the regular size, a partial region write overflows its buffer; on S3 the chunk is not reported as varlen: negations proved.)", "quantifier": "every n below 2^32, data, dtype, codec", "why_tests_cant": "all lengths", "anchors": ["include/z5/generic/dataset.hxx: writeChunk, readChunk, checkVarlenChunk", "include/z5/util/format_data.hxx", "include/z5/filesystem/store.hxx: readVarlenFromHeader", "include/z5/s3/store.hxx: supportsN5HeaderIO"]}
{"id": "C42", "title": "File modes behave as documented", "statement": "Opening a container in each mode and each existence state leads to the documented outcome (error, use, create or truncate), an existing container is not changed by opening it in r, r+ or a, a container of an unsupported version is refused, one that was created is found again with its format, and the permission flags of each mode are as documented. (N5 version 10 is accepted and an N5 container without version cannot be opened: negations proved. Groups and datasets can be created in r+: recorded deviation.)", "quantifier": "every mode and initial state", "why_tests_cant": "complete decision table rather than samples", "anchors": ["include/z5/util/file_mode.hxx", "src/python/module/z5py/file.py: File.__init__", "include/z5/filesystem/handle.hxx: File::create, Group::create"]}
{"id": "C43", "title": "Python indexing reads and assigns what numpy selects", "statement": "For integers, unit-step slices and an ellipsis, dataset indexing reads and assigns exactly the elements numpy selects (clipping, negative indices, missing axes), with the shape and the order of numpy's result, or an error is raised where numpy raises; steps other than one are rejected. (False for an integer equal to minus the axis length and for slices that start below that: negations proved.)", "quantifier": "every axis length, every integer / slice bound, every index tuple", "why_tests_cant": "all integers", "anchors": ["src/python/module/z5py/shape_utils.py: slice_to_start_stop, int_to_start_stop, normalize_slices", "src/python/module/z5py/dataset.py: index_to_roi"]}
{"id": "C44", "title": "Python broadcasting check accepts only shape-compatible data", "statement": "If assigning an array to a region is accepted then the array's shape without singleton axes equals the region's shape without singleton axes, and each element gets the value at the same position; an array that differs from the region by singletons at the ends is accepted. (False when all windows start with a singleton, e.g. (2,3) into (1,6): accepted although the shapes differ; and for arrays of one element, e.g. (1,) into (1,1): rejected. Negations proved; the first holds for arrays that have, trimmed, no more axes than the region has non-singleton ones.)", "quantifier": "every pair of shapes", "why_tests_cant": "all shapes", "anchors": ["src/python/module/z5py/shape_utils.py: rectify_shape"]}
{"id": "C45", "title": "Dataset creation is refused if the node exists, and what is created can be opened", "statement": "createDataset on an existing node throws and changes nothing; otherwise, if it succeeds, openDataset on the same key yields the same metadata and an all-fill array. (If metadata cannot be serialised an empty directory is left behind, which blocks later creation; a zarr format other than 2 and 3 is accepted by createDataset but not by openDataset: negations proved.)", "quantifier": "every metadata record and container state", "why_tests_cant": "all combinations", "anchors": ["include/z5/factory.hxx: createDataset, openDataset", "include/z5/filesystem/factory.hxx", "include/z5/filesystem/handle.hxx: Dataset::create", "include/z5/metadata.hxx: createDatasetMetadata"]}
{"id": "C46", "title": "Path splitting inverts joining", "statement": "Splitting a string at a delimiter yields pieces that contain no delimiter and joining them with the delimiter restores the string.", "quantifier": "every string and non-empty delimiter", "why_tests_cant": "all strings", "anchors": ["include/z5/util/util.hxx: split, join"]}
{"id": "C47", "title": "Chunk and block iteration helpers visit each block once", "statement": "parallel_for_each_chunk visits every chunk exactly once, parallel_for_each_block visits blocks that tile the array exactly, and the roi versions visit exactly the blocks overlapping a non-empty roi, for every thread count and schedule. (An empty roi underflows: negation proved.)", "quantifier": "every shape, block shape, roi, thread count, schedule", "why_tests_cant": "all shapes and schedules", "anchors": ["include/z5/util/for_each.hxx"]}
{"id": "C48", "title": "Fill values survive conversion", "statement": "The fill value used by a dataset equals the one requested and the one read back after reopening, for every integer with at most 53 significant bits within the range of the dtype, in zarr v2 and v3. Other integers are replaced by the closest integer with at most 53 significant bits, ties going to the even multiple. In datasets of floating point numbers the fill value is the requested number, NaN and infinities included; for float32 a nearest float32, which is the number itself if it is one. (uint64 2^53+1 becomes 2^53 and 2^64-1 is undefined behaviour, as is a number beyond the largest float32 for float32; N5 keeps only 0: negations proved.)", "quantifier": "every fill value and dtype", "why_tests_cant": "all values", "anchors": ["include/z5/dataset.hxx: MixinTyped", "include/z5/metadata.hxx: fillValue"]}
{"id": "C49", "title": "Nodes are classified consistently", "statement": "A node created as a group is reported as a sub-group and a node created as a dataset is not, for zarr v2, zarr v3 and N5; user attribute writes through the API and the creation of other nodes do not change the classification. (Negations proved: an N5 group that is given the four dataset entries as attributes; an N5 attribute document holding both 'compression' and 'compressionType'; the implicit parents of a nested zarr node; a node of an N5 container named like a zarr document.)", "quantifier": "every node and history of attribute writes", "why_tests_cant": "unbounded histories", "anchors": ["include/z5/generic/attributes.hxx: isSubGroup", "include/z5/handle.hxx: hasAllN5DatasetAttributes", "include/z5/generic/metadata.hxx"]}
{"id": "C50", "title": "Object-store deletion and listing are complete", "statement": "Removing a file, group or dataset in an object store removes exactly the objects under its name, in batches of at most 1000, however many there are and whatever others do with other objects meanwhile (an object the service reports it could not delete is not noticed: negation proved); a removal that succeeds has had no failed request. Paginated listing returns every object under a prefix once, and the children of a group once (a failed request ends the listing of children silently: negation proved). Whether something exists is answered correctly or with an exception (asking a group for a child takes a failed request for absence: negation proved). What others meanwhile do to objects under other names is neither lost nor undone by a removal, however it ends.", "quantifier": "every bucket, every name, every sequence of responses of the service (page sizes, errors, failed deletions) and of changes made by others between the requests", "why_tests_cant": "all listings", "anchors": ["include/z5/s3/handle.hxx: listAllKeys, deletePrefix"]}
{"id": "C51", "title": "removeDataset deletes every chunk", "statement": "removeDataset on a dataset open for writing deletes every stored chunk and touches no file that does not belong to a chunk of the dataset, whatever the chunk files contain, for every thread count and schedule; on a read-only dataset it throws and deletes nothing.", "quantifier": "every store, thread count and schedule", "why_tests_cant": "all stores (also damaged ones) and schedules", "anchors": ["include/z5/util/functions.hxx: removeDataset"]}
{"id": "C52", "title": "Operations stay inside the container", "statement": "Opening, creating and removing files, groups and datasets and changing attributes at paths below an existing container changes nothing outside of the container, whether the operations succeed or fail, and after any sequence of them every entry still has a directory above it. (The Python create_group and create_dataset with a name that starts with a slash create at the absolute path: negation proved.)", "quantifier": "every operation, name, mode and state of the file system", "why_tests_cant": "all operations x all other paths", "anchors": ["include/z5/filesystem/handle.hxx", "include/z5/factory.hxx", "src/python/module/z5py/group.py: create_group, require_group, create_dataset"]}
{"id": "C53", "title": "Queries never modify storage", "statement": "Asking whether a node exists, what it is, for its metadata or its attributes, and opening a dataset, changes nothing in storage in any mode, whether it succeeds or fails.", "quantifier": "every query, argument, mode and state of the file system", "why_tests_cant": "all queries x states", "anchors": ["include/z5/filesystem/handle.hxx", "include/z5/filesystem/attributes.hxx", "include/z5/filesystem/metadata.hxx", "src/python/module/z5py/group.py: __contains__, __getitem__"]}
{"id": "C54", "title": "An interrupted write to S3 leaves every chunk old or new", "statement": "If a region write, a chunk write or a chunk removal on a dataset in S3 is interrupted at any point, every object is the one from before the call or the one that the completed call leaves; the whole dataset can still be read, and every chunk (shard, if sharded) has wholly its old or wholly its new elements. (Not so in files: negation proved.)", "quantifier": "every dataset, reachable content, call, schedule and crash point", "why_tests_cant": "all crash points and schedules", "anchors": ["include/z5/s3/store.hxx: ChunkStore", "include/z5/s3/handle.hxx: putObject, deleteObject", "include/z5/multiarray/array_access.hxx"]}
{"id": "C55", "title": "Failing S3 requests are reported and damage nothing", "statement": "If GET, PUT or DELETE requests of a region read or write on S3 fail (whether or not the service has carried them out), the read throws or delivers the right elements, and the write throws, or does exactly what it does without failures; in any case every chunk is wholly old or wholly new and the dataset can be read. (A failing HEAD request is taken for a missing chunk: a region read then delivers fill values and a partial region write overwrites the rest of the chunk with fill values, without any error: negations proved.)", "quantifier": "every dataset, reachable content, call, schedule and combination of failing requests", "why_tests_cant": "all combinations of failures and schedules", "anchors": ["include/z5/s3/handle.hxx: getObject, putObject, deleteObject, objectExists", "include/z5/s3/store.hxx: ChunkStore", "include/z5/multiarray/array_access.hxx"]}
{"id": "C56", "title": "Attributes of nodes on S3", "statement": "On S3, writing or removing attributes of a file, group or dataset changes exactly the named attributes: afterwards reading shows the merge (or the removal), no other object changes, and in zarr v3 nothing else of the metadata document changes; locked N5 keys are refused and hidden; a read-only handle is refused. If a request other than HEAD fails, the call throws and the attributes are either as before or as after it; this holds for every history of calls, some of them interrupted. The dataset that a handle opens is the same before and after. (A failing HEAD request makes a write go to the wrong document without an error, and of two concurrent writes one is lost: negations proved.)", "quantifier": "every bucket, node of each format, handle, history of attribute changes, and every combination of failing and missing answers", "why_tests_cant": "all histories, documents and failures", "anchors": ["include/z5/s3/attributes.hxx: JsonIO, readAttributes, writeAttributes, removeAttribute", "include/z5/generic/attributes.hxx", "include/z5/attributes.hxx", "include/z5/s3/metadata.hxx: readMetadata"]}
{"id": "C57", "title": "Creating and opening on S3", "statement": "On S3, createFile, createGroup and createDataset are refused, changing nothing, if the handle may not create or something is stored below the key; otherwise they store exactly one document (an N5 group: none). A dataset that was created has the shape, chunks, type and compression asked for and the format of its container, opening it gives the same dataset, all its elements are the fill value, and it has no attributes. If a request other than HEAD fails, the call throws and the bucket is as before or as after a complete call. (An N5 group does not exist after it was created; a key that does not exist counts as an N5 sub-group; createDataset with an empty shape throws but leaves metadata that block the key; a failing HEAD request yields an N5 dataset in a zarr container; two concurrent creations both succeed: negations proved.)", "quantifier": "every bucket, container, key, argument list and combination of failing and missing answers", "why_tests_cant": "all buckets, arguments and failures", "anchors": ["include/z5/s3/factory.hxx: openDataset, createDataset, createFile, createGroup, getZarrChunkConfig", "include/z5/s3/metadata.hxx", "include/z5/s3/handle.hxx: File, Group, Dataset", "include/z5/factory.hxx"]}
{"id": "C58", "title": "visititems meets every member exactly once", "statement": "visititems(func), on a group of files or on S3, calls func exactly once for every group and dataset below the group, with its path relative to the group on which visititems was called, a group before its members; it stops at the first result that is not None and returns it, and changes nothing. The order of listings and the sizes of their pages do not matter; a failing request other than a listing is reported. relative_path of any two nodes on files leads from the first to the second. (Provided that everything below the group is a group or a dataset that can be opened. After create_group(\"a/b\") in a zarr container visititems throws; when a listing fails on S3 its members are left out silently; an object whose name begins with a slash makes the recursion endless: negations proved.)", "quantifier": "every container, group, callback with any state, order of directory entries, page sizes and failing requests", "why_tests_cant": "all trees, all orders of listings, all failures", "anchors": ["src/python/module/z5py/group.py: visititems, __iter__, __getitem__", "include/z5/filesystem/handle.hxx: listSubDirs", "include/z5/filesystem/factory.hxx: relativePath", "include/z5/s3/handle.hxx: keysImpl", "include/z5/s3/factory.hxx: relativePath", "src/python/lib/handles.cxx: relative_path"]}
{"id": "C59", "title": "Metadata documents are those of the zarr and N5 formats", "statement": "A document that conforms to the zarr v2, zarr v3 or N5 specification and uses features the library supports, whoever has written it and whatever optional keys it leaves out or adds, is opened as the array it describes: data type, shape, chunks, shards, compressor settings, fill value and chunk key separator. The documents the library writes conform to the specifications and describe the dataset. Documents that ask for what the library does not support (order, filters, data types, compressors, codecs of the chunks, fill value texts, groups, different numbers of axes) are refused. (Not refused, but read as something else: big endian elements, an index of shards at the start or with other codecs, several compressors, codecs beside the sharding codec: negations proved. A dataset with zlib encoding is described as gzip in N5 and zarr v3.)", "quantifier": "every JSON document and array description, every typed metadata record", "why_tests_cant": "all documents other programs may write, not only those this library writes; round trips cannot detect an error that writer and reader share", "anchors": ["include/z5/metadata.hxx: DatasetMetadata::fromJson, toJson, checkJson", "include/z5/types/types.hxx: readV3CodecsFromJson, writeV3CodecsToJson, readZarrCompressionOptionsFromJson, readN5CompressionOptionsFromJson", "include/z5/factory.hxx: getZarrChunkConfig"]}
{"id": "C60", "title": "create_dataset in Python makes the dataset that is asked for", "statement": "If create_dataset succeeds, the name was free, and now there is a dataset under it whose metadata document, read as the specification of its format says, describes the array asked for: shape and data type from the arguments or the data, chunks as given (limited to the shape) or default chunks of about 64^3 elements, shards, compressor with its documented options or defaults, fill value, chunk key separator and encoding. Sensible arguments are accepted. Arguments that make no sense (unknown compressors, options that are not the compressor's, missing or contradictory shape or data type, chunks with other number of axes or of length 0, fill values the data type does not have, shards outside zarr v3 or that are not whole chunks) are refused. (Not so: gzip in zarr v2 gives zlib, clevel of blosc has no effect in zarr v2 and N5, shards are refused when chunks exceed the array, an axis of length 0 is undefined behaviour: negations proved.)", "quantifier": "every group, name (nested or not), combination of arguments, container format and file system state", "why_tests_cant": "the combinations of arguments, formats, option dictionaries and number values are unbounded, and a test usually reads back with the same library", "anchors": ["src/python/module/z5py/dataset.py: Dataset._create_dataset, _to_zarr_compression_options, _to_zarr_v3_compression_options, _to_n5_compression_options", "src/python/module/z5py/group.py: Group.create_dataset", "src/python/module/z5py/shape_utils.py: get_default_chunks", "src/python/lib/factory.cxx: create_dataset", "include/z5/metadata.hxx: createDatasetMetadata"]}
{"id": "C61", "title": "require_dataset returns what exists or creates it", "statement": "If there is a dataset under the name, require_dataset returns it exactly when shape, chunks and data type, as far as they are given, are those of the dataset, and raises a TypeError otherwise; it writes nothing and works in read-only mode. If there is a group it raises a TypeError and writes nothing. If there is nothing it raises a ValueError in read-only mode and otherwise creates the dataset asked for. A further call with arguments that agree gives the same dataset and writes nothing. (Not so when chunks exceed the array: the same call raises a TypeError the second time; parents of a nested name get no metadata: negations proved.)", "quantifier": "every group, name, arguments of both calls and file system state", "why_tests_cant": "ranges over all states of the container and pairs of argument sets", "anchors": ["src/python/module/z5py/dataset.py: Dataset._require_dataset", "src/python/module/z5py/group.py: Group.require_dataset"]}
{"id": "C62", "title": "Writing metadata again keeps user attributes", "statement": "Writing the metadata of a root, of a group or of a zarr dataset to a node that exists, on files or on S3, keeps every user attribute of the node and changes no file or object but the one with the metadata; afterwards the metadata say what they should for the format, and other members of a group's zarr.json are kept. (Not so for N5 datasets: writing their metadata deletes the user attributes; negation proved.)", "quantifier": "every node of every format in every state of the file system or the bucket, and all metadata", "why_tests_cant": "ranges over all attributes and other members of the documents that may be present", "anchors": ["include/z5/generic/metadata.hxx: writeV3GroupMetadata, writeFileMetadata, writeGroupMetadata, writeDatasetMetadata", "include/z5/filesystem/metadata.hxx: writeMetadata", "include/z5/s3/metadata.hxx: writeMetadata"]}
{"id": "C63", "title": "Chunks in directories", "statement": "Concurrent writers never fail because of directories: whatever the format, every valid region write to a dataset on the file system, under every schedule of its threads (which make the directories of nested chunks without a lock), succeeds if the compressor does; reads afterwards return what was written last and the fill value elsewhere; at every moment the only paths that have changed are the files of chunks (or shards) that overlap the region, and new directories on the way to them. The same holds for several writes at the same time: outcomes and chunk contents are those of some schedule on a store without directories. (Not so for a zarr dimension separator that contains `/` but is not `/`: no chunk can be written; negation proved.)", "quantifier": "every well-formed plain or sharded dataset, every history of successful calls, every valid call or list of concurrent calls, every schedule at the granularity of single file system operations (one mkdir, one open, one byte)", "why_tests_cant": "ranges over all interleavings of directory creation with file creation by other threads, and over all contents of the rest of the file system", "anchors": ["include/z5/filesystem/handle.hxx: Chunk::create, Chunk::path", "include/z5/filesystem/store.hxx: ChunkStore::read, write, erase", "include/z5/multiarray/array_access.hxx: writeSubarray, readSubarray"]}
{"id": "C64", "title": "Data outlive the objects and processes that wrote them", "statement": "A dataset is created; afterwards, in any order and any number of times, it is opened again (from any group above it, in any mode), objects are destroyed, regions or chunks are written or removed through any open writable object, attributes are changed, and other things happen elsewhere in the container. At any time every open object, and every object that is newly opened, has the shape, chunk shape and fill value of the creation, and reading any region through it gives what was written last by any of the objects, or the fill value. Opening and valid region writes always succeed.", "quantifier": "every creation that the format can describe, every history of openings, closings, writes, attribute changes and unrelated changes, every thread schedule of the writes and reads, every lawful compression library", "why_tests_cant": "tests reopen a dataset once, after one write, from the group that created it; the claim is about all interleavings of sessions and all metadata, including compressor settings that differ between the creating and the opening object", "anchors": ["include/z5/factory.hxx:openDataset", "include/z5/factory.hxx:createDataset", "include/z5/filesystem/factory.hxx:makeDataset", "include/z5/dataset.hxx:init_compressor", "include/z5/filesystem/handle.hxx:Chunk", "include/z5/attributes.hxx"]}
{"id": "C65", "title": "What is deleted is gone, and nothing else", "statement": "Deleting a group, a file or a dataset, by the remove methods of handles, by removeDataset or by del group[name] in Python, removes everything at and below its path and changes nothing else; it succeeds on every group and every dataset written by the library, at any time in its life. It is refused without any effect in read-only mode and for a name that is not there (KeyError). Afterwards neither the name nor any name below it is in the group, all other names are as before, and the name can be used again for a dataset in which nothing of the former one is left.", "quantifier": "every group, every dataset with every history of sessions and writes (C64), every mode, every name, every thread schedule of removeDataset (without shards)", "why_tests_cant": "tests delete one small dataset and look at one name; the claim is about every content of the file system around it, every history and every schedule of the threads that remove chunks", "anchors": ["include/z5/filesystem/handle.hxx:Group::remove", "include/z5/filesystem/handle.hxx:Dataset::remove", "include/z5/util/functions.hxx:removeDataset", "src/python/module/z5py/group.py:__delitem__"]}
{"id": "C66", "title": "A container is a tree of groups and arrays", "statement": "Through the Python module a container behaves like a tree of named groups and arrays with attributes. After every sequence of successful calls (File, create_group, require_group, create_dataset, require_dataset, opening, closing, del, writes of elements, changes of attributes, in any modes and from any groups of the container), `name in group`, `group[name]`, `keys()`, `visititems`, reads of elements and of attributes show exactly the tree that these calls made: every group and array that was created and not deleted, with the shape, chunks and data type it was created with and the elements and attributes that were last written. Every further call does to the tree what its name says, or is refused (KeyError, TypeError, ValueError) without any effect, and opening the container again gives the same tree.", "quantifier": "every history of calls of every length on one container of any of the three formats, any number of groups, arrays and open objects, all modes, all thread schedules of writes, and all changes elsewhere in the file system", "why_tests_cant": "tests look at single calls on small containers; the claim is about all sequences of calls, so about every state a container can get into and everything that is not touched by a call", "anchors": ["src/python/module/z5py/group.py:Group", "src/python/module/z5py/file.py:File", "src/python/module/z5py/attribute_manager.py:AttributeManager", "src/python/lib/factory.cxx:exportFactory", "include/z5/filesystem/handle.hxx:Group", "include/z5/filesystem/factory.hxx:createDataset"]}
{"id": "C67", "title": "The attributes of a file, group or dataset are a Python dict", "statement": "Through z5py, `.attrs` of a file, group or dataset behaves as a Python dict whose contents are the user attributes of that node: `attrs[k]`, `get`, `in`, iteration, `len`, `items`, `attrs[k] = v`, `del`, `update`, `pop`, `popitem`, `setdefault` and `clear` return what they return on a dict and leave behind what they leave on a dict, in all three formats. Exceptions: in mode 'r' every change raises ValueError and changes nothing; the version of an N5 file and the metadata of an N5 dataset cannot be changed (RuntimeError, and an `update` that names one of them changes nothing at all), and the latter are not shown; `del` of a missing key does not raise. Nothing but the attributes that are shown is changed by any operation.", "quantifier": "all files, groups and datasets in the three formats, all modes, all attributes, all keys and JSON values, all histories of operations", "why_tests_cant": "any interleaving of the thirteen operations on any contents; `pop`, `popitem`, `setdefault` and `clear` are compositions of several reads and writes whose effect depends on the contents", "anchors": ["src/python/module/z5py/attribute_manager.py: AttributeManager", "src/python/lib/attributes.cxx: exportAttributesT", "include/z5/attributes.hxx: readAttributes, writeAttributes, removeAttribute"]}
{"id": "C68", "title": "Every compressor returns the chunk it was given, or reports an error", "statement": "For each of the seven compressors (raw, blosc, zlib/gzip with zlib or libdeflate, bzip2, lz4, xz, zstd), every chunk of elements of any type of less than 4 GiB and all settings: compressing the chunk either raises an error or gives non-empty data that decompress, in an object with any other settings of the same compressor, to exactly the chunk; neither has undefined behaviour. Decompressing arbitrary bytes never reads or writes outside the buffers (except blosc). With settings the library accepts, chunks of up to 1 GiB are compressed without an error (bzip2: if the buffer is as large as its documentation asks for). Chunks too large for lz4 and blosc are refused.", "quantifier": "all libraries that meet their documented contracts, all settings, all chunks, all compressed inputs, all element sizes", "why_tests_cant": "the streaming loops run any number of times and depend on how the library splits its output; 32-bit truncations only show at 4 GiB", "anchors": ["include/z5/compression/zlib_compressor.hxx", "include/z5/compression/bzip2_compressor.hxx", "include/z5/compression/lz4_compressor.hxx", "include/z5/compression/xz_compressor.hxx", "include/z5/compression/zstd_compressor.hxx", "include/z5/compression/blosc_compressor.hxx"]}
{"id": "C69", "title": "Unpickling gives the same object and changes nothing", "statement": "pickle.loads never changes anything on disk, also for a file object of mode 'w'. The object that pickle.loads(pickle.dumps(o)) gives for a file, a group or a dataset o, which was obtained from a file by any sequence of [], create_group, require_group, create_dataset and require_dataset calls, at whatever time it is unpickled: if the path of o leads to a group of the container now, it is that group, if it leads to an array it is a dataset object for this array with the number of threads of o, and otherwise it is a KeyError. Path, mode, file, dimension separator and name are those of o.", "quantifier": "all objects obtained by any calls in any states, all histories of the container before unpickling, all modes, zarr v2/v3 and N5", "why_tests_cant": "objects are named by chains of calls with any names, and the container changes in any way between pickling and unpickling", "anchors": ["src/python/module/z5py/file.py: _unpickle_file, File.__reduce__", "src/python/module/z5py/group.py: _unpickle_group, Group.__reduce__, Group.file", "src/python/module/z5py/dataset.py: _navigate, _unpickle_dataset, Dataset.__reduce__"]}
{"id": "C70", "title": "Numbers assigned from Python are stored as these numbers", "statement": "ds[index] = v with a number v stores v in exactly the selected elements: an integer of the data type is stored as it is, also one of more than 53 bits; an integer that the 64-bit type of the same signedness has is reduced modulo the number of values of the data type; a float assigned to integers loses what is after the point; in float64 a float is stored as it is and an integer as a nearest double; in float32 a nearest float is stored, and a float of 32 bits as it is. Assigning a complex number to elements that are not complex is an error, and nothing is written. The other elements keep their values.", "quantifier": "all numbers, integer and floating point data types, indices, datasets (plain and sharded) with any history of writes, interleavings of the threads", "why_tests_cant": "the conversion goes through up to three number types, with all numbers of each and all data types; the interesting ones are at the bounds of each", "anchors": ["src/python/lib/dataset.cxx: writePyScalar, writePyScalarCasted, write_scalar", "src/python/module/z5py/dataset.py: Dataset.__setitem__, Dataset.dtype", "include/z5/multiarray/broadcast.hxx: writeScalar"]}
{"id": "C71", "title": "read_chunk returns what write_chunk wrote", "statement": "In Python, after any calls of write_chunk (with or without varlen, successful or not) and remove_chunk on a dataset in files, read_chunk of every chunk of the grid returns exactly what the last successful call left there: None if the chunk was removed or only the fill value was written, else the elements that were written, in the shape of the chunk, or in one dimension for varlen chunks. For every backend and for sharded datasets, read_chunk agrees with reading by regions after any calls that write regions or chunks, and write_chunk counts as a write of the region of its chunk. Without varlen exactly the arrays of the element type with as many elements as the chunk are accepted; varlen is refused for zarr and for sharded datasets. A call of write_chunk that raises has changed nothing.", "quantifier": "all datasets (N5, zarr, sharded), all histories of chunk calls, all chunks, arrays and contents of the memory that is allocated for the result", "why_tests_cant": "the shape and the number of elements of the result depend on the format, on whether the chunk is at the end of the array and on the header of the stored chunk, for every history of calls; the memory of the result is not initialised, so a chunk that is not completely filled may look right", "anchors": ["src/python/lib/dataset.cxx: readPyChunk, writePyChunk", "src/python/module/z5py/dataset.py: Dataset.read_chunk, Dataset.write_chunk, Dataset.chunk_exists", "include/z5/generic/dataset.hxx: readChunk, writeChunk, checkVarlenChunk, getChunkShape, getChunkSize"]}
{"id": "C72", "title": "read_subarray and write_subarray access exactly the region between their corners", "statement": "In Python, read_subarray(start, stop) returns an array whose shape is stop - start and whose element i is the element of the dataset at start + i, for every thread schedule; write_subarray(start, data) stores exactly data in the region at start, as a write like any other; after a completed write_subarray(start, data), read_subarray(start, start + shape of data) returns data. With as many start as stop coordinates, all below 2^63, exactly the corners of non-empty regions inside the dataset are accepted; everything else (negative coordinates, stop not above start, beyond the end, wrong number of axes, None) raises. read_direct with a source selection by slices puts exactly the selected elements of the dataset into the selected places of the destination and leaves the other places alone; write_direct writes exactly the selected elements of the source to the selected region.", "quantifier": "all datasets (plain and sharded), all histories of writes before the call, all corners, selections and arrays, all schedules of the threads, all contents of the memory that is allocated for the result", "why_tests_cant": "the coordinates are Python integers of any size and sign, which are converted to unsigned 64 bit numbers and added without checks for overflow; the result array is not initialised, so an element that is not read may look right", "anchors": ["src/python/module/z5py/dataset.py: Dataset.read_subarray, Dataset.write_subarray, Dataset.read_direct, Dataset.write_direct", "src/python/lib/dataset.cxx: readPySubarray, writePySubarray", "include/z5/multiarray/array_access.hxx: readSubarray, writeSubarray", "include/z5/dataset.hxx: checkRequestShape"]}
{"id": "C73", "title": "The properties of a dataset say what it is", "statement": "In Python, shape, ndim, size, len(), chunks, shards, dtype, is_zarr, chunks_per_dimension, number_of_chunks, compression and compression_opts of a dataset report what its metadata document says (for datasets that are opened, whoever wrote them) and what was asked for (for datasets that are created, at once and after they are opened again): the number of chunks along an axis is the least one that covers the axis, compression is the name of the compressor and compression_opts are its settings, the names of which are different. The name is the one that was given to create_dataset, except for bzip2 in zarr v2 and gzip in zarr v3. For zlib and zstd in zarr v2, zstd in zarr v3 and all compressors but blosc and raw in N5, passing compression and compression_opts on to create_dataset for a dataset of the same format gives the same compressor with the same settings; for the others create_dataset refuses them.", "quantifier": "all metadata documents of zarr v2, zarr v3 and N5 in the sense of C59, all arguments of create_dataset, all file systems, all sizes", "why_tests_cant": "the properties go through several tables and conversions (types, compressor names, 32 and 64 bit numbers) that differ between formats; tests look at a few combinations of format, compressor and shape", "anchors": ["src/python/module/z5py/dataset.py: Dataset.shape, ndim, size, chunks, shards, dtype, chunks_per_dimension, number_of_chunks, compression, compression_opts, __len__, is_zarr", "src/python/lib/dataset.cxx: exportDataset", "include/z5/dataset.hxx: shape, size, numberOfChunks, chunksPerDimension, getCompressor, getCompressionOptions", "include/z5/compression: getOptions"]}
{"id": "C74", "title": "The arrays of a container are arrays of numpy", "statement": "At every point in the life of a container (files, groups and datasets created, opened, closed, written, annotated and deleted, by any number of objects in any number of processes), ds[index] of any open object gives what the same index of numpy gives for the current elements of the array, and changes nothing; ds[index] = value through an object that is not read-only makes of the array what numpy's assignment makes of it, and of nothing else anything; create_dataset(name, data=x) makes an array with the elements of x, which ds[:] gives back, in this process and after the dataset is opened again in any mode; assignments through read-only objects never change anything and never succeed.", "quantifier": "all histories of a container, all arrays and types, all indices of integers, slices of unit step and an ellipsis (as far as C43 says the library follows numpy), all values, all schedules of the threads, all compression libraries with the documented contract", "why_tests_cant": "the content of an array depends on all writes before, through whatever object, and on what reopening makes of metadata and chunk files; tests try a few indices on fresh datasets in one process", "anchors": ["src/python/module/z5py/dataset.py: __getitem__, __setitem__, _create_dataset, index_to_roi", "src/python/module/z5py/group.py: create_dataset, __getitem__", "include/z5/multiarray/array_access.hxx: readSubarray, writeSubarray", "include/z5/multiarray/broadcast.hxx: writeScalar"]}
{"id": "C75", "title": "Crashes while metadata are changed", "statement": "If the process is killed at any point while attributes of a file, group or dataset are written or removed, then no file but the document of these attributes has changed, and the change was made completely or not at all or the document is damaged: then reading the attributes throws and so does every further change. A zarr v2 dataset is opened as before after such a crash; an N5 or zarr v3 dataset is opened as before or not at all. If the process is killed while a file, group or dataset is created, nothing that was there before has changed, what is new are directories on the way to it and its metadata document, and it is there completely, or not begun, or opening it (reading its metadata) throws: a half-created dataset is never opened with wrong metadata. If the process is killed while a group or dataset is removed, nothing outside has changed, every file inside is as before or gone, and to call remove again completes the removal.", "quantifier": "all crash points (after any step of the operation: each look at the file system, each directory made, the truncation of a document, every prefix of its content, each file removed), all file systems, names, attributes and arguments of creation, all three layouts, all orders in which remove_all deletes the files", "why_tests_cant": "tests do not kill the process between two system calls; the property ranges over all those points, over all contents, and over the orders in which a directory is deleted, which the system chooses", "anchors": ["include/z5/filesystem/attributes.hxx: JsonIO::write, JsonIO::writePretty", "include/z5/generic/attributes.hxx: writeAttributes, removeAttribute", "include/z5/generic/metadata.hxx: writeFileMetadata, writeGroupMetadata, writeDatasetMetadata", "include/z5/filesystem/handle.hxx: create, remove", "include/z5/filesystem/factory.hxx: createDataset, createFile, createGroup", "include/z5/filesystem/metadata.hxx: readMetadata"]}
{"id": "C76", "title": "Processes that work on different nodes of a container do not disturb each other", "statement": "Several processes use a container at the same time: each makes a sequence of calls that create groups or datasets (in existing groups), open datasets, read, set or remove attributes. If no call of one process changes the node that a call of another process is about, or goes through, then every process gets from its calls exactly the results (values and exceptions) it would get if it worked alone, whatever the others do and whenever they are killed; after enough steps of its own it has come to its end; what it sees in the end is what its own calls made of it; and files that no call writes are as before. In particular attributes set by several processes on different nodes are all there in the end, and a region written to a dataset by parallel tasks while other processes change attributes (also those of this dataset) or create other nodes is written completely. On the same node this is false: of two processes that set different attributes of one node, one can lose its change although both calls succeed; a reader can get an exception while another process writes; two processes can both create the same dataset.", "quantifier": "all numbers of processes, all sequences of calls, all interleavings of their single accesses to the file system (each look, each directory made, the truncation of a document, each prefix of its content), all file systems and layouts, all regions, values, datasets and shards", "why_tests_cant": "a test runs one schedule of the operating system; the property ranges over all of them, and the windows in which the calls on one node collide are microseconds wide", "anchors": ["include/z5/filesystem/attributes.hxx: readAttributes, writeAttributes, removeAttribute", "include/z5/filesystem/metadata.hxx: readMetadata, writeMetadata", "include/z5/filesystem/factory.hxx: openDataset, createDataset, createGroup", "include/z5/filesystem/handle.hxx: create, exists", "include/z5/multiarray/array_access.hxx: writeSubarray"]}
{"id": "C77", "title": "Opening containers on S3 in Python", "statement": "S3File(name, mode) on a bucket: with 'r' and 'r+' a container is opened if there are objects below its name, and OSError is raised otherwise; 'a' opens or creates; 'w-' and 'x' create, and raise OSError if there are objects below the name. None of these changes anything but by the creation, which writes the one document of a zarr group in the wanted version. 'w' leaves, when it returns, exactly the document of a new container below the name, whatever was there; if the service is healthy it does return, with a bounded number of requests; interrupted at any point it has deleted some objects of the old container, and the document of the new one is there only when all old objects are gone. In every mode, however the call ends and whatever other clients do, objects that are not below the name are left alone. The object that is returned is what the arguments ask for; only 'r' refuses writing. use_zarr_format=False is refused with an exception and unknown modes with KeyError before any request. Pickled and unpickled, a container object is the same one, and unpickling sends no request (so it never truncates or creates). What does not hold: an N5 container, or any prefix with objects, is opened as zarr; an object the service fails to delete (reported in a successful response) stays, and then no document is written although 'w' succeeds; two processes that open with 'x' may both succeed.", "quantifier": "all names, modes, versions, buckets, pages of listings, request failures, points of interruption and changes by other clients", "why_tests_cant": "tests run against one mocked bucket without failures; the claims range over all bucket contents, listing pages, failures and interleavings with other clients", "anchors": ["src/python/module/z5py/file.py: S3File.__init__, S3File.__reduce__, _unpickle_s3_file", "include/z5/s3/handle.hxx: File::exists, File::remove, File::create", "include/z5/s3/factory.hxx: createFile"]}
{"id": "C78", "title": "Data on S3 outlive the objects they were written with", "statement": "A dataset in a bucket on S3 is created once and then used over any number of sessions: objects are opened from groups above it, in any mode and any process, and destroyed; regions, scalars and single chunks are written and chunks removed through all of them, by any number of threads; attributes are written and removed; and anything may happen to other objects of the bucket. At every point a read of any region, through any open object, returns what was last written there, by whichever object, and the fill value of the creation where nothing was written, and changes nothing. At every point the dataset can be opened again, with the shape, chunks, type and fill value it was created with. Region writes through objects that are not read-only succeed. A write changes no object outside the dataset and none of its documents. What does not hold: opened from a group that has no document of its own (createDataset with a nested key stores none), a zarr dataset may use other names for its chunks than those it was created with.", "quantifier": "all zarr v2, v3 (sharded or not) and N5 datasets with lawful compressors, all histories of calls, all schedules of their threads, all buckets", "why_tests_cant": "the state of a dataset is spread over documents and chunk objects and re-read by every handle; that no sequence of opens, writes and attribute changes lets them disagree cannot be settled by trying sequences", "anchors": ["include/z5/s3/dataset.hxx: Dataset", "include/z5/s3/handle.hxx: Dataset, Chunk", "include/z5/s3/metadata.hxx: readMetadata", "include/z5/factory.hxx: openDataset, createDataset", "include/z5/multiarray/array_access.hxx: readSubarray, writeSubarray, writeScalar"]}
{"id": "C79", "title": "A container on S3 is a tree of groups and arrays", "statement": "Whatever sequence of calls has been made on a zarr container on S3 with z5py (S3File, create_group, require_group, create_dataset, require_dataset, group[name], del group[name], writes through dataset objects, changes of attributes), by any number of objects, modes and processes, and whatever happens to other objects of the bucket, the container behaves like one tree: `name in group`, group[name], keys() and visititems() see exactly the nodes of the tree; every open dataset object reads the elements that the tree has; creating adds exactly the node (and for datasets the groups that lead to it) or reports a KeyError if the name is taken; require_* return what is there or a TypeError for the wrong kind or other arguments; deleting removes exactly the node and all that is below it; attributes are those that were written. In read-only mode everything that would change the container is refused with a ValueError without a request. If a request fails the call reports it and the tree is as before, or has the nodes (some of them, for create_dataset with missing groups) that the call was to add. Objects of the bucket outside the container are never changed. What does not hold: a group created with a name that starts with a slash is stored under another name than the one under which it is looked for.", "quantifier": "all histories of calls on all zarr (v2 and v3) containers on S3, all names without empty components, all trees, all sizes of arrays, all schedules, all sequences of answers of the service that tell the truth", "why_tests_cant": "the tree is spread over objects whose names are matched by prefix, and each call finds its nodes by listing and asking for documents; that no sequence of calls lets these disagree ranges over all histories, names and failures", "anchors": ["src/python/module/z5py/group.py: create_group, require_group, require_dataset, create_dataset, __getitem__, __contains__, __delitem__", "src/python/module/z5py/file.py: S3File", "src/python/module/z5py/dataset.py: _create_dataset, _require_dataset, _open_dataset", "include/z5/s3/handle.hxx: File, Group, Dataset", "include/z5/factory.hxx: createDataset, openDataset, createGroup", "include/z5/util/functions.hxx: removeDataset"]}
{"id": "C80", "title": "JSON documents and attribute values survive their texts", "statement": "A metadata or attribute document that is written as text (compact, or indented and followed by a line feed, in UTF-8) and read again is the same value: every object, array, string (any Unicode text, quotation marks, backslashes, control characters), 64 bit integer (signed or unsigned), finite double, boolean and null, at any depth; different documents have different texts. An attribute value that Python hands over (json.dumps, everything outside of ASCII escaped) and gets back (json.loads) is the same value. While a document is being written, no part of its text (no prefix of its bytes) is a document, so that a reader never takes a torn document for a complete one; only the final line feed may be missing. What does not hold: attributes with a NaN or an infinite number anywhere are refused as a whole when they come from Python and become null when they come from C++; an integer of more than 64 bits becomes a double (or is refused if it is too large for one); what has been accepted once does not change any more.", "quantifier": "all JSON values, all sizes, depths and strings, all places at which the text can be torn, all choices of digits for doubles that read back as the double", "why_tests_cant": "documents range over all trees and all Unicode strings, and the torn texts over all their prefixes; whether two readers and three writers agree on escapes, surrogate pairs, digits and brackets is a statement about all of them", "anchors": ["include/z5/filesystem/attributes.hxx: JsonIO::read, write, writePretty", "include/z5/filesystem/metadata.hxx: writeMetadata, readMetadata", "include/z5/s3/attributes.hxx: JsonIO", "include/z5/s3/factory.hxx: openDataset", "src/python/lib/attributes.cxx: write_attributes, read_attributes", "src/python/module/z5py/attribute_manager.py: _read_attributes, _write_attributes"]}
{"id": "C81", "title": "Stored arrays are those of the formats", "statement": "The files of an array are the ones that the format specifications prescribe, byte by byte, so that arrays can be exchanged with other implementations in both directions. If the files of a directory are an array of zarr v2, of zarr v3 (with or without the sharding_indexed codec) or of N5 as the specification says (chunk names; elements in little endian and C order at the full chunk shape for zarr; mode, number of axes, extents and elements in big endian with the first axis fastest, cut off at the end of the array, for N5; chunks at any place of a shard, index, CRC-32C), whoever wrote them, every region that is read has exactly the elements of that array. Every sequence of successful write calls turns such files into such files, with the previous elements outside of the written regions and the written elements inside; in particular what was written to a new array is an array of the format. A valid region write to files that another program wrote has no undefined behaviour and succeeds if the compressor does.", "quantifier": "all arrays (shape, chunks, element type, values), all files that conform to the formats including those this library would never write, all sequences of writes, all thread schedules", "why_tests_cant": "a test that writes and reads with the same library does not see a mistake that is made in both directions, and a test against files of another implementation sees only the files at hand; the claim is about all files that the specifications allow", "anchors": ["include/z5/util/format_data.hxx: data_to_buffer, buffer_to_data, read_n5_header, write_n5_header", "include/z5/handle.hxx: getChunkKey", "include/z5/util/sharding.hxx: parseShardIndex, buildShard", "include/z5/generic/dataset.hxx: readChunk, writeChunk", "include/z5/generic/sharded_dataset.hxx", "include/z5/multiarray/array_access.hxx: readSubarray, writeSubarray"]}
{"id": "C82", "title": "Documents of other programs are read as what they say", "statement": "Metadata and attribute documents that other programs wrote are read as the values that they denote according to RFC 8259: with any white space, any order of members, any of the ways to write a character or a number, at any depth. Texts that are not JSON are refused: parsing a document from S3 or from Python accepts exactly the JSON texts (ignoring a byte order mark in front of it and what follows a zero byte behind it); reading a document from the filesystem accepts exactly the files that begin with one (what follows is ignored); json.loads accepts exactly the JSON texts, with the three further numbers NaN, Infinity and -Infinity, and nothing behind them. No text denotes two values; of several members with the same name the last one counts. What has been read can be written again without loss, and what the library and Python write is a JSON text of the value.", "quantifier": "all byte sequences, all JSON texts, all values", "why_tests_cant": "a parser is tested with the documents that the tests contain; that it agrees with the grammar on all byte sequences, in both directions, is a statement about infinitely many texts of unbounded depth", "anchors": ["include/z5/filesystem/metadata.hxx: readMetadata", "include/z5/filesystem/attributes.hxx: JsonIO::read", "include/z5/s3/attributes.hxx: JsonIO", "include/z5/s3/metadata.hxx: readMetadata", "src/python/lib/attributes.cxx: write_attributes, read_attributes", "src/python/module/z5py/attribute_manager.py: _read_attributes, _write_attributes"]}
{"id": "C83", "title": "Directories of other programs can be read and written, and read by them again", "statement": "If a directory holds an array in the format of zarr v2, zarr v3 (with or without shards) or N5 - a JSON text that describes it, with whatever else is in it, and files with chunks, some of which may be missing - then opening it succeeds, from C++ and by name from Python, with the data type, shape, chunks and shards that the document says, changes nothing, and every region that is read has exactly the elements of the array. Valid writes to it succeed, and after any successful calls the directory still holds an array of the same format and description, with the elements replaced by those that were written. The same holds of a dataset that the library created: what is in the files then is an array of the format, with the data type, shape, chunks and shards that were asked for. This remains so through any number of sessions, with objects opened in any modes and with changes of attributes, and every open object reads what all of them wrote.", "quantifier": "all directories (as bytes in files), formats, shapes, chunk and shard shapes, data types, compressors, JSON texts, sequences of calls, regions and schedules", "why_tests_cant": "tests exchange a few arrays with one version of another library; which texts and files a program that follows the format may write is unbounded", "anchors": ["include/z5/factory.hxx: openDataset, createDataset, getZarrChunkConfig", "include/z5/filesystem/metadata.hxx: readMetadata", "include/z5/metadata.hxx: DatasetMetadata::fromJson", "include/z5/dataset.hxx: Dataset", "include/z5/generic/dataset.hxx: Dataset", "include/z5/generic/sharded_dataset.hxx: ShardedDataset", "src/python/module/z5py/group.py: __getitem__"]}
{"id": "C84", "title": "Buckets of other programs can be read and written, and read by them again", "statement": "If the objects below a name in a bucket hold an array of real numbers in the format of zarr v2, zarr v3 (with or without shards) or N5 - a JSON text that describes it, with whatever else is in it, and objects with chunks, some of which may be missing - then opening it on S3 succeeds, from C++ and by name from Python, with the data type, shape, chunks and shards that the document says, changes nothing, and every region that is read has exactly the elements of the array. Valid writes to it succeed. Through any history of opening, closing, writing, changing attributes and changes elsewhere, the bucket still holds an array of the same format and description, with the elements replaced by those that were written, and every open object reads them. The same holds of a dataset that the library created. Arrays of complex numbers are refused and stay as they are.", "quantifier": "all buckets (as bytes in objects), names, formats, shapes, chunk and shard shapes, real data types, compressors, JSON texts, histories of calls, regions, schedules and reliable answers of the service", "why_tests_cant": "the tests use one service and a few arrays that the library itself made; which texts and objects another program may write is unbounded, and so are the histories", "anchors": ["include/z5/factory.hxx: openDataset, createDataset", "include/z5/s3/factory.hxx: openDataset, createDataset, getZarrChunkConfig", "include/z5/s3/metadata.hxx: readMetadata", "include/z5/s3/handle.hxx: Chunk", "include/z5/s3/attributes.hxx: readAttributes, writeAttributes", "include/z5/s3/dataset.hxx: Dataset", "src/python/module/z5py/group.py: __getitem__"]}
{"id": "C85", "title": "Containers of other programs are used like those of the library, and stay containers of their format", "statement": "If a directory holds a container in the format of zarr v2, zarr v3 or N5 that was written by whatever program - groups and arrays with their JSON documents in any valid text, with whatever attributes, some chunks missing - then File(path) in the modes r, r+ and a opens it and changes nothing; `in`, keys() and group[name] show exactly its groups and arrays; every array opens with its type, shape and chunks and every region that is read has exactly its elements; .attrs shows the attributes in the files. From there every history of calls (creating, opening, deleting, writing, changing attributes) does to the tree what it says. And after any history of calls, on such a container or on one that the library created, the files are again, byte by byte, a container of the format with the groups, arrays, elements and attributes that the calls led to, so that other programs read it and the library can start from it again.", "quantifier": "all directories (as bytes in files), trees of groups and arrays, formats, shapes, chunk and shard shapes, data types, compressors, JSON texts, attributes, histories of calls from any number of objects and processes, and schedules", "why_tests_cant": "tests use containers that the library itself made and a few from one other program; which texts, attributes and trees another program writes is unbounded, and so are the histories that follow", "anchors": ["src/python/module/z5py/file.py: File.__init__", "src/python/module/z5py/group.py: Group", "src/python/module/z5py/dataset.py: Dataset", "src/python/module/z5py/attribute_manager.py: AttributeManager", "include/z5/factory.hxx: createFile, createGroup, createDataset, openDataset", "include/z5/filesystem/metadata.hxx: readMetadata, writeMetadata", "include/z5/filesystem/attributes.hxx", "include/z5/filesystem/handle.hxx"]}
{"id": "C86", "title": "Containers of other programs on S3 are used like those of the library, and stay containers of their format", "statement": "If a bucket holds, below a name, a container in the format of zarr v2 or v3 that was written by whatever program - groups and arrays of real numbers with their JSON documents in any valid text, with whatever attributes, some chunks missing - then S3File(bucket, name) in the modes r, r+ and a opens it and changes nothing; `in`, keys() and group[name] show exactly its groups and arrays; every array opens with its type, shape and chunks and every region that is read has exactly its elements; .attrs shows the attributes in the objects. From there every history of calls (creating, opening, deleting, writing, changing attributes) does to the tree what it says. And after any history of calls, on such a container or on one that the library created, the objects are again, byte by byte, a container of the format with the groups, arrays, elements and attributes that the calls led to, so that other programs read it and the library can start from it again.", "quantifier": "all buckets (as bytes in objects), trees of groups and arrays, versions of zarr, shapes, chunk and shard shapes, data types, compressors, JSON texts, attributes, histories of calls from any number of objects and processes with whatever answers of a reliable service, and schedules", "why_tests_cant": "the tests on S3 read one public container; which texts, attributes, keys and trees another program writes is unbounded, and so are the histories that follow and the answers of the service", "anchors": ["src/python/module/z5py/file.py: S3File", "src/python/module/z5py/group.py: Group", "src/python/module/z5py/dataset.py: Dataset", "src/python/module/z5py/attribute_manager.py: AttributeManager", "include/z5/s3/factory.hxx", "include/z5/s3/metadata.hxx: readMetadata, writeMetadata", "include/z5/s3/attributes.hxx", "include/z5/s3/handle.hxx"]}
{"id": "C87", "title": "The arrays of a container on S3 are arrays of numpy", "statement": "At every point in the life of a container on S3, for every open object of every array: ds[index] has the shape and the elements that numpy gives for the same index; ds[index] = item and ds[index] = number make of the array what numpy's assignment makes of it and touch nothing else; create_dataset(data=...) makes an array with these elements, and ds[:] gives them back. An object that was opened in mode r never changes anything.", "quantifier": "all histories of calls on a container on S3 (C79, also those that start from a container of another program, C86), all arrays and open objects, all indices of integers, slices and ellipses, all items and numbers, all schedules of the threads", "why_tests_cant": "the tests on S3 read a few slices of one public array; indices, histories, items and schedules are unbounded", "anchors": ["src/python/module/z5py/dataset.py: __getitem__, __setitem__, _create_dataset", "src/python/module/z5py/shape_utils.py", "include/z5/s3/dataset.hxx", "include/z5/multiarray/array_access.hxx"]}
{"id": "C88", "title": "Writing to the arrays of a container at the same time", "statement": "At every point in the life of a container on the file system, any number of modifying calls (writing regions, single chunks, removing chunks), through any of the open objects of any of its arrays, may run at the same time, as long as no chunk file (with sharding: shard) of an array has elements of two of the calls: under every schedule of all their tasks the files and directories afterwards and the outcome of every task are the same. If no task fails, the container is one as after a history of calls: all calls' elements are there, and all other elements, nodes and attributes are as before. Region writes do not fail (except for the limit on the size of a shard).", "quantifier": "all histories of calls on a container (C66, also those that start from a container of another program), all lists of modifying calls without a common file, all interleavings of the file operations of all their tasks, including the creation of directories", "why_tests_cant": "the number of interleavings is exponential in the number of operations; a test sees the few that the scheduler produces", "anchors": ["include/z5/filesystem/dataset.hxx: writeChunk, removeChunk", "include/z5/filesystem/sharded_dataset.hxx", "include/z5/filesystem/store.hxx", "include/z5/filesystem/handle.hxx: Chunk::create", "include/z5/multiarray/array_access.hxx: writeSubarray, writeScalar", "include/z5/util/threadpool.hxx"]}
{"id": "C89", "title": "Writing to the arrays of a container on S3 at the same time", "statement": "At every point in the life of a container on S3, any number of modifying calls (writing regions, single chunks, removing chunks), through any of the open objects of any of its arrays, may run at the same time, as long as no object of the bucket (a chunk, with sharding a shard) has elements of two of the calls: in whatever order the requests of all their tasks arrive, the bucket afterwards and the outcome of every task are the same. If no task fails, the container is one as after a history of calls: all calls' elements are there, and all other elements, nodes and attributes are as before. Region writes do not fail (except for the limit on the size of a shard).", "quantifier": "all histories of calls on a container on S3 (C79, also those that start from a container of another program), all lists of modifying calls without a common object, all interleavings of the requests of all their tasks", "why_tests_cant": "the number of interleavings is exponential in the number of requests; a test sees the few that the scheduler and the network produce", "anchors": ["include/z5/s3/dataset.hxx: writeChunk, removeChunk, writeShard", "include/z5/s3/handle.hxx: Chunk, putObject, deleteObject", "include/z5/multiarray/array_access.hxx: writeSubarray, writeScalar"]}
{"id": "C90", "title": "Reading while other calls write", "statement": "At every point in the life of a container, on files or on S3, a region of an array may be read while other calls write, to other arrays or to parts of the same array that no file (object of the bucket: a chunk, with sharding a shard) shares with the region: in whatever order the file operations (requests) of all tasks happen, the reading call gives exactly the elements that the region had before, sets nothing else in the caller's buffer, and the writing calls have exactly the effect that they have when nobody reads. The same holds beside any other tasks, of this or another process, that leave the files (objects) of the region alone.", "quantifier": "all histories of calls on a container on files (C66) and on S3 (C79), all regions and output views, all lists of modifying calls without a common file that keep away from the region, and all other tasks that do; all interleavings of all tasks", "why_tests_cant": "the number of interleavings is exponential in the number of file operations; a test sees the few that the scheduler produces", "anchors": ["include/z5/multiarray/array_access.hxx: readSubarray, writeSubarray, writeScalar", "include/z5/filesystem/dataset.hxx: readChunk, read, writeChunk", "include/z5/s3/dataset.hxx: readChunk, writeChunk", "include/z5/util/threadpool.hxx: parallel_foreach"]}
{"id": "C91", "title": "An interrupted process leaves a container on S3 a container", "statement": "At every point in the life of a container on S3, any number of modifying calls on its arrays run at the same time (as in C89: no object of the bucket has elements of two of them), and the process is killed after any number of their requests. Then every object of the bucket is as it was before the calls or as the completed calls would leave it, and the documents are as before. The bytes in the bucket are a complete container of the format, which every other process (or program) can open and go on with: all groups, arrays and attributes are there, and each chunk (with sharding: each shard) of an array has either all its old elements or all its new ones.", "quantifier": "all histories of calls on a container on S3 (C79, also those that start from a container of another program), all lists of modifying calls without a common object that would succeed, all orders of the requests and all points at which they stop, all texts that the documents may have", "why_tests_cant": "a test would have to kill the process between every two requests of every interleaving, and compare the bucket with what every other program makes of it", "anchors": ["include/z5/s3/dataset.hxx: writeChunk, removeChunk, writeShard", "include/z5/s3/handle.hxx: Chunk, putObject, deleteObject", "include/z5/multiarray/array_access.hxx: writeSubarray, writeScalar", "include/z5/generic/sharded_dataset.hxx: writeShardBlobs"]}
{"id": "C92", "title": "What an interrupted process leaves of a container on files", "statement": "At every point in the life of a container on files, any number of modifying calls on its arrays run at the same time (as in C88: no file has elements of two of them), and the process is killed at any step, also in the middle of writing a file. Then every path is as it was before the calls or as the completed calls would leave it, except that files of chunks which the calls write may be missing or have any bytes; no directory is lost, no document appears, and the documents of the nodes are as before. If those files of chunks which are neither old nor complete are removed (and possibly other files of chunks), the bytes are a complete container of the format, which every other process (or program) can open and go on with: all groups, arrays and attributes are there, and each chunk (with sharding: each shard) of an array has all its old elements, or all its new ones, or its file is missing and it has the fill value.", "quantifier": "all histories of calls on a container on files (C66, also those that start from a container of another program, all three formats), all lists of modifying calls without a common file that would succeed, all interleavings of their file operations (writing goes byte by byte) and all points at which they stop, all ways to clean up, all texts that the documents may have", "why_tests_cant": "a test would have to kill the process between every two bytes of every interleaving, clean up in every way and compare the result with what every other program makes of it", "anchors": ["include/z5/filesystem/store.hxx: writeFile, Store::write, erase", "include/z5/filesystem/handle.hxx: Chunk::create, remove", "include/z5/multiarray/array_access.hxx: writeSubarray, writeScalar", "include/z5/generic/sharded_dataset.hxx: writeShardBlobs"]}
{"id": "C93", "title": "Interrupted writing calls can be made again", "statement": "Writing calls on the arrays of a container run at the same time (C88, C89) and are interrupted at any step, the process ends, and a new process opens the arrays and makes the same calls again; this may happen any number of times until an attempt completes. Then the container has exactly the nodes, attributes and elements that it would have if the first attempt had not been interrupted. On S3 this holds for all calls. On files it holds for calls that write all elements of the chunks (with sharding: shards) they write to, if after each interruption the files of those chunks are removed which are neither old nor complete; it is enough to remove all files of the chunks that the calls write to.", "quantifier": "all histories of calls on a container (C66, C79, also those that start from a container of another program), all lists of modifying calls without a common file or object that would succeed, all interleavings, all numbers of attempts and points of interruption, all ways to clean up, all texts that the documents may have", "why_tests_cant": "a test would have to interrupt the calls at every step of every schedule, and the repeated calls again, for every state of the container", "anchors": ["include/z5/filesystem/store.hxx: writeFile", "include/z5/s3/store.hxx", "include/z5/multiarray/array_access.hxx: writeSubarray, writeScalar", "include/z5/dataset.hxx: writeChunk", "src/python/module/z5py/file.py: File, S3File"]}
{"id": "C94", "title": "Deleting from a container on S3 that fails or is interrupted", "statement": "`del group[name]` in a container on S3 fails because requests do (with or without an effect), objects of a batch are not deleted, or it is interrupted after any number of its requests. Then no object outside the node has changed: the other groups have their attributes and the other arrays are read as before, also through objects that are open. Of a group, every object is as before or gone. Either the container is what a successful `del` makes of it, or the name is still in the group and nothing can be created there, so that what is left never shows up in a new group or dataset. `remove` of the handle of the node removes what is left; so does the same `del` again, if the documents of the group are still there. An array loses its chunks first: if `del` is interrupted while they are deleted, the container is intact and every element of the array is as before or the fill value.", "quantifier": "all histories of calls on a container on S3 (C79, also those that start from a container of another program), all groups and names, all lists of events (failing requests, requests with an effect that are reported as failed, objects that are not deleted, sizes of pages, interruptions)", "why_tests_cant": "a test would have to make every request of the call fail, or end the process there, for every tree and every subset of the objects of a batch that the service fails to delete", "anchors": ["src/python/module/z5py/group.py: __delitem__, __contains__, create_group, create_dataset", "include/z5/util/functions.hxx: removeDataset", "include/z5/s3/handle.hxx: deletePrefix, removeImpl, inImpl"]}
{"id": "C95", "title": "Crashes while nodes of a container on files are created, removed or get attributes", "statement": "At any point in the life of a container on the file system the process is killed at any step of creating a group or a dataset, of removing the directory of a group or a dataset, or of changing the attributes of a node. All other nodes of the container can be opened as before and have their attributes and elements, also through objects that are open elsewhere. After a creation the container is as before, or has the new node, or has a directory that cannot be read as such a node; to remove the handle of that node makes the container exactly what it was. After a removal, to remove again makes the container what the complete removal makes of it. If `del` of an array is interrupted while it deletes the chunks, every element of the array is as before or the fill value. After a change of attributes the container is as before or as after the change, or the document of that one node is cut off and reading its attributes raises an error.", "quantifier": "all histories of calls on a container on the file system (C66, also those that start from a container of another program), all groups, names and modes, all steps at which the process is killed, all orders in which a directory is removed, all ways in which a document is cut off", "why_tests_cant": "a test would have to kill the process at every system call, for every container and every order in which the file system lists a directory, and then read every node", "anchors": ["include/z5/filesystem/handle.hxx: create, remove", "include/z5/filesystem/metadata.hxx: writeMetadata", "include/z5/filesystem/attributes.hxx: writeAttributes, removeAttribute", "include/z5/util/functions.hxx: removeDataset", "include/z5/factory.hxx: createGroup, createDataset", "src/python/module/z5py/group.py: create_group, create_dataset, __delitem__"]}
{"id": "C96", "title": "Several processes create the same node at the same time", "statement": "At any point in the life of a container on the file system any number of processes call createGroup for the same new name, or createDataset for the same new name with the same arguments, at the same time, and their steps are interleaved in any way. At every moment all nodes of the container can be opened and have their attributes and elements as before, also through objects that are open elsewhere. Each call ends well, or with the error that the node exists, or, for zarr of version 3 only, with the error that zarr.json could not be parsed. Once all calls are over at least one of them has ended well, and the container is the one that a single call makes. (If the datasets differ, both calls can end well, and the object of one of them does not fit the dataset that is there then.)", "quantifier": "all histories of calls on a container on the file system, all groups and new names, all numbers of processes, modes and arguments, all interleavings of the steps of the calls, all ways in which a document is written piece by piece", "why_tests_cant": "a test sees few of the interleavings of the system calls of several processes, and not those in which a process looks at a document while another one is writing it", "anchors": ["include/z5/factory.hxx: createGroup, createDataset", "include/z5/filesystem/handle.hxx: create, isZarr", "include/z5/generic/metadata.hxx: writeGroupMetadata, writeV3GroupMetadata, writeDatasetMetadata", "include/z5/filesystem/metadata.hxx: writeMetadata"]}
{"id": "C97", "title": "Looking at a node while another process changes or creates it", "statement": "One process changes the attributes of a group or an array of a container on the file system, at any point in the life of the container, while any number of other processes read them; the steps of all calls are interleaved in any way. Each reader gets exactly the attributes from before the change, or exactly those from after it, or the error that the document could not be parsed, never a mixture; the change is what it is without the readers. Likewise, while one process creates a dataset and others open it, the creating call is not disturbed, and each call that opens the dataset fails or gives the object that opening the complete dataset gives. (The last part has an exception: in a zarr container, if the chunk keys are not those of zarr of version 2 with dots, the object may take the chunk keys to be those with dots.)", "quantifier": "all histories of calls on a container on the file system, all groups, arrays, changes of attributes, new names, arguments and modes, all numbers of processes, all interleavings of the steps of the calls, all ways in which a document is written piece by piece", "why_tests_cant": "a test does not control at which of its system calls a reader meets which state of the document that another process is writing", "anchors": ["include/z5/factory.hxx: openDataset, getZarrChunkConfig, createDataset", "include/z5/attributes.hxx: readAttributes, writeAttributes", "include/z5/generic/attributes.hxx: readAttributes, writeAttributes, removeAttribute", "include/z5/filesystem/attributes.hxx", "include/z5/filesystem/metadata.hxx: getMetadataPath, readMetadata, writeMetadata"]}
{"id": "C98", "title": "Reading attributes and opening datasets on S3 while other clients change the bucket", "statement": "The attributes of a group or an array of a container on S3 are read while other clients change the container between the requests of this call. What is read are the attributes that the node has in one of the states that the call met, never a mixture of several; or the call reports an error, because a request has failed. Likewise a dataset is opened while another client creates it: the call fails or gives the object that opening the complete dataset gives. (Exception: in a zarr container, if the chunk keys are not those of zarr of version 2 with dots, the object may take the chunk keys to be those with dots.)", "quantifier": "all histories of calls on a container on S3, all groups, arrays, open objects and modes; all changes of the bucket by others between any two requests, as long as each state is one in the life of the container in which the node is there (for opening: in which the document is missing or the same but for the attributes); all errors of GET requests other than a false \"not found\"; all page sizes of listings", "why_tests_cant": "a test does not control what other clients do to the bucket between two requests of one call", "anchors": ["include/z5/factory.hxx: openDataset, getZarrChunkConfig", "include/z5/s3/factory.hxx: openDataset", "include/z5/s3/attributes.hxx: readAttributes", "include/z5/s3/metadata.hxx: readMetadata", "include/z5/s3/handle.hxx: isZarr, isZarrV3, exists, readObject", "include/z5/generic/attributes.hxx: readAttributes"]}
{"id": "C99", "title": "Changing attributes and creating nodes on S3 while other clients change the rest of the bucket", "statement": "The attributes of a group or an array of a container on S3 are changed, or a group or a dataset is created, while other clients change the bucket between the requests of this call, but not the document of this node (when a node is created: create nothing below the same name). If the call returns, there is one moment at which it has had exactly the effect that it has alone; everything that others have done before and after is kept, so that the container is afterwards one in which the change and those of the others have been made one after the other. If the call reports an error because a request has failed, it has had this effect or none; while it waits it has changed nothing.", "quantifier": "all histories of calls on a container on S3, all groups, arrays, open objects, modes, changes of attributes and arguments of new nodes; all changes of the bucket by others between any two requests, as long as the node stays one of the container and its document is not changed; all errors of GET and PUT requests other than a false \"not found\", also of requests that had their effect nevertheless", "why_tests_cant": "a test does not control what other clients do to the bucket between two requests of one call", "anchors": ["include/z5/attributes.hxx: writeAttributes, removeAttribute", "include/z5/generic/attributes.hxx: writeAttributes, removeAttribute", "include/z5/generic/metadata.hxx: writeGroupMetadata, writeDatasetMetadata", "include/z5/s3/attributes.hxx", "include/z5/s3/factory.hxx: createDataset, createGroup", "include/z5/factory.hxx: createDataset, createGroup", "include/z5/s3/handle.hxx: create, exists, putObject"]}
{"id": "C100", "title": "Several clients change the attributes of the same node on S3, or create the same node", "statement": "The attributes of a group, file or dataset on S3 are changed while other clients change the bucket between the requests of this call, also the attributes of the same node. If the call returns, then at one moment it has replaced all attributes of the node by those that the node had at one moment during the call, with its own change applied, and has changed nothing else in the bucket; or it removes an attribute and has changed nothing, because at one moment during the call there was nothing to remove. If a request has failed, this was done or nothing; while the call waits it has changed nothing. So attributes are never a mixture of a torn and a new document; changes of others to the same node can be lost as a whole, and nothing else can. A call that creates a dataset in a zarr or N5 group on S3, while others may create something of the same name, is refused because something was below the name at one moment during the call, and has changed nothing; or nothing was below the name at one moment, the call gives the object that it would give alone, and at one moment it has put the document of its dataset, and nothing else. With zarr v3 the attributes in this document can be those of a document that another client has put meanwhile. The same holds for groups and containers (also of N5); there the document that is put in zarr v3, and in N5 for containers, has what a document of another client has, but that the node is a group of this format. require_group in Python gives the group, which it has found, or else created as above; or it is refused and has changed nothing, because something was below the name when it was about to create the group, or something was there that did not have the document of a group at one moment. create_group in Python behaves as creation above, but is also refused with a KeyError if it finds something when it looks first.", "quantifier": "all zarr nodes on S3, all handles, all changes of attributes; all changes of the bucket by others between any two requests that leave the node one of its format and its metadata other than attributes as they are; all errors of GET and PUT requests other than a false \"not found\", also of requests that had their effect nevertheless; all datasets and groups that are created in a zarr group, in both versions of zarr, whose parent keeps its marker, and all datasets that are created in an N5 group that does not become one of zarr; all containers that are created; all groups of zarr v2 that are created in Python, and all groups of zarr v2 and v3 that are required", "why_tests_cant": "a test does not control what other clients do to the bucket between two requests of one call", "anchors": ["include/z5/attributes.hxx: writeAttributes, removeAttribute", "include/z5/generic/attributes.hxx: writeAttributes, removeAttribute, writeV3Attributes, removeV3Attribute", "include/z5/s3/attributes.hxx: readJson, writeJson", "include/z5/s3/handle.hxx: putObject", "include/z5/factory.hxx: createDataset", "include/z5/s3/handle.hxx: create, exists", "include/z5/factory.hxx: createGroup", "include/z5/generic/metadata.hxx: writeGroupMetadata, writeV3GroupMetadata, writeDatasetMetadata", "include/z5/factory.hxx: createFile", "include/z5/generic/metadata.hxx: writeFileMetadata", "src/python/module/z5py/group.py: create_group, require_group"]}
