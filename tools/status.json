{
 "C01": [
  "proved",
  "For every shape and chunk shape with s+b <= 2^64 per axis."
 ],
 "C02": [
  "proved",
  "In-grid coordinates; a counterexample documents wrap-around outside the grid."
 ],
 "C03": [
  "proved",
  "Non-empty regions; a counterexample documents regions of extent zero."
 ],
 "C04": [
  "proved",
  "Axis differences below 2^31 (the code uses int); a counterexample beyond."
 ],
 "C05": [
  "proved",
  "Requests with offset+extent below 2^64; the wrap-around case is a counterexample."
 ],
 "C06": [
  "proved",
  "Arbitrary strided views that fit their buffers; destination addresses distinct."
 ],
 "C07": [
  "proved",
  ""
 ],
 "C08": [
  "proved",
  "Every history of writeSubarray/writeScalar/writeChunk/removeChunk calls; elements equal (==) to the fill value may come back as the fill value, exact for types whose == is equality."
 ],
 "C09": [
  "proved",
  "As C08."
 ],
 "C10": [
  "proved",
  "Every history of successful region writes, chunk writes and chunk removals on a sharded dataset, every schedule; no task is undefined. Writes may throw (compressor failure, shard of 2^63 bytes or more)."
 ],
 "C11": [
  "proved",
  "Plain and sharded datasets, also when some of the tasks fail."
 ],
 "C12": [
  "proved",
  "Plain and sharded datasets. Fill value == itself (not NaN) for the storage part; NaN counterexample."
 ],
 "C13": [
  "proved",
  "Plain and sharded datasets; any store for the outcomes, reachable stores for the delivered array."
 ],
 "C14": [
  "proved",
  "Plain and sharded datasets."
 ],
 "C15": [
  "proved",
  "Plain (per chunk) and sharded (per shard) datasets; lost-update counterexamples inside one chunk / one shard."
 ],
 "C16": [
  "proved",
  "Linearisability, deadlock freedom, nothing lost for chunk calls; counterexamples for mixing with writeSubarray and for concurrent readers."
 ],
 "C17": [
  "proved",
  ""
 ],
 "C18": [
  "proved",
  ""
 ],
 "C19": [
  "proved",
  "Bursts up to 32 bits, odd-weight errors, checksum-only changes."
 ],
 "C20": [
  "proved",
  ""
 ],
 "C21": [
  "proved",
  "Shard extents multiples of chunk extents; counterexample otherwise."
 ],
 "C22": [
  "proved",
  "Round trip, byte layout, both header readers; extents above the field widths are truncated (counterexample)."
 ],
 "C23": [
  "proved",
  "readSubarray on arbitrary files; readChunk and partial writes are counterexamples."
 ],
 "C24": [
  "proved",
  "Byte swap reverses each element and is an involution."
 ],
 "C25": [
  "proved",
  "Delimiter with at least one non-digit character; counterexample otherwise."
 ],
 "C31": [
  "proved",
  "Chunk, region and scalar operations on regular and sharded datasets, and attributes, creation, removal and opening over the file-system model, for single operations and sequences."
 ],
 "C32": [
  "proved",
  "Index vectors at least as long as the shape; counterexamples for shorter ones and for sharded readChunk."
 ],
 "C33": [
  "proved",
  "Plain datasets; sharded counterexample."
 ],
 "C34": [
  "proved",
  "Plain and sharded datasets."
 ],
 "C35": [
  "proved",
  "Datasets without shards: every thread count and schedule. Sharded: one thread (c35_sharded_one_thread); c35_sharded_race_counterexample shows the failure with two. c35_no_value_changes_reads_counterexample: without a value reads change. c35_nan_counterexample: NaN elements are undefined behaviour of std::set."
 ],
 "C36": [
  "proved",
  "Plain and sharded datasets, any thread count and schedule, any type whose < is a strict weak order on the elements. c36_padding_counterexample: zarr edge chunks count their padding; c36_counts_are_array_counts: without padding the counts are those of the array. c36_zeros_counterexample: for -0.0 and 0.0 the representative depends on the schedule."
 ],
 "C37": [
  "proved",
  "Workers, mutex sections, condition variables, notifications and spurious wakeups modelled; every schedule. Exactly once if no call throws; the exception of the smallest failing index is rethrown after all begun calls ended; an exception skips the rest of its batch (counterexample). Batch size: any number >= 1 (its floating point computation is not modelled)."
 ],
 "C38": [
  "proved",
  "Every schedule, number of workers and command sequence of the owner: FIFO, at most once, progress, no deadlock, waitFinished."
 ],
 "C39": [
  "proved",
  "Plain and sharded datasets, every crash point at byte granularity of file writes. Repair by rewriting chunks holds for plain datasets and is disproved for shards."
 ],
 "C40": [
  "proved",
  ""
 ],
 "C41": [
  "proved",
  "c41_partial_write_overflow_counterexample: a partial region write to a varlen chunk that is longer than a regular chunk overflows the buffer. On S3 chunks are not reported as varlen (counterexample)."
 ],
 "C46": [
  "proved",
  "Split/join for every non-empty delimiter; empty delimiter counterexample."
 ],
 "C47": [
  "proved",
  "Every element is visited exactly once with its own index and region, for parallel_for_each_chunk, parallel_for_each_chunk_in_roi, parallel_for_each_block and its roi variant, any number of threads, provided the number of chunks or blocks fits 64 bits and the roi is not empty; c47_empty_roi_counterexample: an empty roi (begin = end) visits a chunk."
 ],
 "C51": [
  "proved",
  "Files of the chunks; the removal of the emptied directory is not modelled. Read-only: c35_read_only."
 ],
 "C26": [
  "proved",
  "JSON values, not texts. Effective compression options = settings of the compressor without blosc nthreads, which the format does not hold."
 ],
 "C27": [
  "proved",
  "c27_fill_counterexample: a non-zero fill value is lost. c27_zlib_counterexample: zlib encoding of the zlib compressor is lost (becomes gzip)."
 ],
 "C28": [
  "proved",
  "c28_zlib_counterexample: zlib encoding is lost (read back as gzip). c28_fill_counterexample: a fill value outside 64 bits is undefined behaviour at serialisation."
 ],
 "C48": [
  "proved",
  "c48_large_counterexample: uint64 2^53+1 becomes 2^53, 2^64-1 is undefined behaviour. N5 keeps only zero (see C27)."
 ],
 "C29": [
  "proved",
  "All histories of attribute writes and removals through group, file and dataset handles, for zarr v2, zarr v3 and N5; JSON text layer and failing file operations not modelled."
 ],
 "C30": [
  "proved",
  "All histories through dataset handles; that group handles on the same path are not protected is proved as a counterexample."
 ],
 "C45": [
  "proved",
  "Every container, key and argument list; the array is all fill for every dataset object on the directory. Left-over directories and zarr formats other than 2 and 3 are proved as counterexamples."
 ],
 "C49": [
  "proved",
  "Creation, any history of attribute changes and creation of other nodes. Reserved attribute names in N5, documents with both compression entries, implicit parents and reserved node names are proved as counterexamples."
 ],
 "C42": [
  "proved",
  "Decision table of File.__init__ over the file-system model; negations for N5 version 10 and for N5 attributes without version; deviation r+ recorded."
 ],
 "C52": [
  "proved",
  "All modifying operations of the C++ handles and factories and of the Python file/group layer; negation for absolute names in Python."
 ],
 "C53": [
  "proved",
  "All queries of the file-system handles and the Python group layer."
 ],
 "C43": [
  "proved",
  "Indices of integers, unit-step slices and ellipses, for reads and both kinds of assignment, on plain and sharded datasets. The two places where the code differs from numpy (an integer equal to minus the axis length; a slice starting before that) are excluded by TameIndex and proved as counterexamples for every axis length."
 ],
 "C44": [
  "proved",
  "The shape check accepts incompatible shapes when every window starts with a singleton: negation proved for every matrix of at least 2 x 2 into a row. Under the stated guard (trimmed array has no more axes than the selection has non-singleton ones) acceptance implies equal shapes up to singletons, and the values written are those of the array at the same position."
 ],
 "C50": [
  "proved",
  "Listing, removal, existence and children over an object store with arbitrary paging, errors and concurrent changes; three negations: per-object failures of a batch are ignored, a failed listing of children is silent, a failed HEAD request is taken for absence."
 ],
 "C54": [
  "proved",
  "Plain and sharded datasets; region writes and chunk calls."
 ],
 "C55": [
  "proved",
  "Faults of GET, PUT and DELETE; the behaviour on failing HEAD requests is a pair of counterexamples. That a request error means what the code takes it for (not-found versus other) is assumed."
 ],
 "C56": [
  "proved",
  "Events of other clients and failing HEAD requests are excluded from the positive theorems and are the counterexamples."
 ],
 "C57": [
  "proved",
  "Events of other clients and failing HEAD requests are excluded from the positive theorems and are the counterexamples."
 ],
 "C58": [
  "proved",
  "That every member can be opened is a hypothesis; that the callback does not change the container is a simplification."
 ],
 "C59": [
  "proved",
  "The formats are specified in Spec/Formats.lean after their published specifications, not after the code. c59_endian/index/codecs/transpose_counterexample: unsupported zarr v3 documents that are accepted."
 ],
 "C60": [
  "proved",
  "c60_created, c60_succeeds and c60_refuses cover what is stored, what is accepted and what is refused; four counterexamples name where the code departs from the property"
 ],
 "C61": [
  "proved",
  "the four cases of the state, repetition, and two counterexamples"
 ],
 "C62": [
  "proved",
  "groups, roots and zarr datasets, on files and on S3; c62_n5_counterexample, c62_s3_n5_counterexample: writing the metadata of an N5 dataset deletes its attributes"
 ],
 "C63": [
  "proved",
  "the delimiter is without '/' or is '/' (c63_odd_delimiter_counterexample otherwise)"
 ],
 "C64": [
  "proved",
  "Assumes that the metadata can describe the dataset: values have the types of the C++ parameters, zarr version 2 or 3, and for N5 the fill value zero (N5 does not store it, see C45). A zarr dataset is opened from a directory that is marked as a zarr group; c64_intermediate_group_counterexample shows that a directory made on the way by createDataset is not and that opening from there reads other chunk files. The theorem says that the data type of the reopened dataset is the one it was created with; the choice of the C++ element type from it is ElemTypes of Model/Opened.lean."
 ],
 "C65": [
  "proved",
  "For datasets with shards the theorem is for one thread, which is what Python uses; c65_sharded_race_counterexample shows that with two threads removeDataset can throw and leave the dataset. A shard that had to be written again without one of its chunks and would exceed 2^63 bytes is reported as std::length_error; the theorem keeps this case. The number of chunks is below 2^64."
 ],
 "C66": [
  "proved",
  "Names: not those of the metadata files (c66_reserved_name_counterexample), and not leading through an array (c66_through_array_counterexample); create_group, require_group and require_dataset are covered for names whose parent exists (missing parents: c49_implicit_parent), create_dataset also creates its parents. Arguments of create_dataset are within the limits listed in PyCreateArgs.Asks; create_dataset with data= is create_dataset followed by a write. Failed calls are not steps of a history: refusals change nothing, and a failed write or delete of an array with shards (length_error) ends it."
 ],
 "C67": [
  "proved",
  "c67_step relates each of the 13 operations to a specification of a dict with locked keys (Spec/PyAttrs.lean, which does not mention files); c67_history lifts it to histories; clear() is a loop, proved to terminate. Deviations: del of a missing key does not raise (c67_del_missing_counterexample); clear() on an N5 file always raises (c67_clear_n5_file). The JSON text that passes between Python and C++ is not modelled."
 ],
 "C68": [
  "proved",
  "The libraries are parameters with contracts from their documentation (Spec/Compressors.lean); everything z5 does around the calls (buffer sizes, conversions to 32 bits, loops, return codes) is modelled. c68_all_lawful discharges the assumption on compressors in the other properties. Counterexamples: a chunk of 4 GiB is silently lost with stock zlib and bzip2; the bzip2 buffer is smaller than documented; blosc reads beyond short inputs."
 ],
 "C69": [
  "proved",
  "For containers as in C66 (any history of Python calls). Names that are created have no leading slash; the parents of create_group and require_group exist. Names with doubled slashes are shortened. Counterexamples: create_group of a name whose parents are missing (zarr) or with a leading slash. S3File is not modelled."
 ],
 "C70": [
  "proved",
  "What nanobind converts (nb::cast) is a contract (NbCast.Ok). Counterexamples: integers outside the 64-bit type of the sign of the data type (-1 for every unsigned type), NaN, infinities and too large floats for integer types are undefined behaviour; datasets of complex numbers cannot be assigned to at all. An integer assigned to float32 that is not a float is rounded twice and not in the statement; doubles beyond the largest float are undefined behaviour in C++."
 ],
 "C71": [
  "proved",
  "Counterexamples: the shape of the array is ignored by write_chunk; varlen chunks on S3, N5 chunks at the end of the array that others have stored in full size, and a varlen chunk that is written during read_chunk make read_chunk write past the end of its result."
 ],
 "C72": [
  "proved",
  "Contracts of numpy for indexing and assignment with slices are hypotheses (NpPicks, NpAssigns). Counterexamples: a start with too few coordinates is undefined behaviour in write_subarray, additional coordinates are ignored, coordinates near 2^64 wrap around the check, steps are ignored and open slices raise in read_direct and write_direct."
 ],
 "C73": [
  "proved",
  "The documentation of compression_opts says that it can be passed to create_dataset; c73_not_passed_on shows that this never works for blosc (the default of zarr), bzip2 in zarr v2 and gzip in zarr v3. Sizes and chunk numbers are right if they fit 64 bits, ndim if it fits 32 bits."
 ],
 "C74": [
  "proved",
  "Composes C43/C44 (indices) with C66 (containers). Elements that compare equal to the fill value may come back as the fill value (SameOrFill), which for integers is equality. A ValueError for an array of the same number of elements, but with other axes of length one, is not excluded (C44 says which are accepted). The library differs from numpy for indices that are minus the length of the axis (C43)."
 ],
 "C75": [
  "proved",
  "Steps of the operations are modelled one by one and shown to have, without a crash, the effect of the functions used elsewhere. What a crash leaves of a document is any of a family of byte strings, which the JSON parser is assumed to reject (the empty file and every proper prefix of an object are rejected by a JSON parser). The damage itself is shown by six counterexamples."
 ],
 "C76": [
  "proved",
  "Steps are accesses to one file or directory, as in C75; a document is written in several steps. The files a call may touch are counted without regard to the layout (all five document names of its node and of the group it goes through); creation is covered in existing groups only. Undefined behaviour in one process is not taken to harm others, and there is one common file system without caches (no NFS)."
 ],
 "C77": [
  "proved",
  "The service is the model of C50. For the results by mode, and for truncation, nobody else changes the bucket and failed requests are reported as such (a HEAD request fails only if there is no object; C57); that other objects are left alone holds without this. Credentials, endpoints and the missing-SDK error are not modelled."
 ],
 "C78": [
  "proved",
  "The S3 counterpart of C64. Requests of openDataset, createDataset and of attribute calls may fail (visibly, C57), those of reads and writes of chunks succeed; within one call two requests on the same object take effect one after the other, as S3 guarantees (strong consistency)."
 ],
 "C79": [
  "proved",
  "The S3 counterpart of C66. `create_dataset` is covered for the types that can be opened on S3 (complex types throw, C57). A deletion of an array with shards may stop with a length_error (C49); objects outside of the array are unchanged then."
 ],
 "C80": [
  "proved",
  "The libraries (nlohmann::json, Python's json) are not part of /repo; what is modelled is their documented behaviour for the calls the code makes. The digits that they choose for a double are a parameter with a contract (a JSON number with a fraction or an exponent to which the double is nearest); that there are such digits is shown (`exactDigits_lawful`). Custom encoders and decoders are not modelled."
 ],
 "C81": [
  "proved",
  "The specification (`Spec/Exchange`) is written after the documents of zarr and N5, independently of the model. The byte streams of the compressors belong to their libraries: a chunk conforms if decompressing it gives its bytes (C68 says which compressors are meant by which names). The metadata documents are C59."
 ],
 "C82": [
  "proved",
  "The parsers belong to nlohmann::json and Python and are modelled after their documentation (see C80); the grammar (`Spec/JsonGrammar`) is written after RFC 8259 and knows nothing of them. That everything else is refused is shown for nlohmann::json only (Python also accepts NaN and Infinity, and lone surrogates, which the model leaves out)."
 ],
 "C83": [
  "proved",
  "Within the limits of the implementation (`ArrayDesc.Supported`: shapes below 2^31, chunks below 4 GiB). Compressed streams are those that the compression library decompresses. Undefined behaviour for integer arrays without a fill value (`c83_null_fill_counterexample`); an N5 document with the present and the former entry for the compression is not found by name from Python (hypothesis `NoGroup`, `c49_both_compressions_counterexample`)."
 ],
 "C84": [
  "proved",
  "The name is not empty: an array that is the bucket itself opens and reads as the fill value (`c84_root_counterexample`). Within the limits of the implementation (`ArrayDesc.Supported`). The service answers reliably (requests succeed or report that an object does not exist, and reads see the last write)."
 ],
 "C85": [
  "proved",
  "Elements that compare equal to the fill value may be stored as the fill value (`Tree.StoredAs`), as by C46. Names of documents (.zgroup, ...) are not names of nodes; every array has a fill value that its data type represents, is within the limits of the implementation (`ArrayDesc.Supported`), and in N5 has not both of the attributes compression and compressionType; the version of N5 in the root has a first digit of at most 4."
 ],
 "C86": [
  "proved",
  "As C85, for zarr on S3. Arrays of complex numbers are not opened on S3 (c84_complex), and an array that is the bucket itself is not read (c84_root_counterexample); a container has a group at its root, so the latter does not occur here. Elements that compare equal to the fill value may be stored as the fill value (`Tree.StoredAs`)."
 ],
 "C87": [
  "proved",
  "As C74, for containers on S3. Chunk requests are answered (C55 says what happens when they fail). ds[-n] and ds[-m:] with m > n differ from numpy (c43_first_counterexample, c43_start_counterexample) and are excluded (`TameIndex`). An element that compares equal to the fill value may come back as the fill value (a difference for -0.0 only)."
 ],
 "C88": [
  "proved",
  "Calls on different arrays share directories, and so do calls on one array with nested chunks: whichever task comes first makes them. Calls with a chunk in common may lose elements (C15); calls that create or remove nodes at the same time are not covered."
 ],
 "C89": [
  "proved",
  "As C88, with requests in place of file operations. The requests on chunks succeed, as in C78."
 ],
 "C90": [
  "proved",
  "Files are written byte by byte, objects as a whole. Reading a file while it is being written is not among the cases (the calls must not share a file with the region)."
 ],
 "C91": [
  "proved",
  "putObject and deleteObject replace an object as a whole (a property of S3); on files this is false (`c54_files_counterexample`). The calls are those that would succeed without the interruption. An element may have become the fill value if it compares equal to it, as in C86."
 ],
 "C92": [
  "proved",
  "Without the removal it is false: `c54_files_counterexample` (a file that was cut off is neither old nor new). The calls are those that would succeed without the interruption. An element may have become the fill value if it compares equal to it, as in C85."
 ],
 "C93": [
  "proved",
  "The theorems state one attempt from any state that interrupted attempts can leave, and that a further interruption leaves such a state again, so any number of attempts follows by iteration. For calls on files that write only a part of a chunk, the old elements of a chunk whose file was cut off are lost (`c54_files_counterexample`), so the restriction is needed. An element may have become the fill value if it compares equal to it, as in C85 and C86."
 ],
 "C94": [
  "proved",
  "For arrays with shards the theorems about completing the deletion are not stated, as `del` itself may fail with a `length_error` (C79). The requests that delete single chunks of an array do not fail in the model (as in C79). `c94_stuck_counterexample`: when the document of a group is deleted and something in it is left, `name in group` is true, but the group cannot be opened and `del` raises an error for good; only the handle can remove it."
 ],
 "C95": [
  "proved",
  "Arrays with shards are not in the theorem about removing a dataset, as in C66 (`del` may fail with a `length_error`). `remove_all` is taken to remove everything there is, in any order with what is in a directory before the directory (`Disk.Removes`). `c95_chunks` is about the moments between the deletions of two chunks (one removal of a file each, for arrays without shards). That `del` may be unable to remove what is left is C75 (`c75_remove_counterexample`, `c75_create_stuck_counterexample`)."
 ],
 "C96": [
  "proved",
  "The calls are those of the C++ library; that create_group of Python first looks whether the name is there is not part of the theorem. The processes write the same document, so that the order of their pieces makes no difference to the complete document; that pieces of different lengths of one document overlap is not modelled: a document that is being written is a file with any contents."
 ],
 "C97": [
  "proved",
  "One process writes, the others only read; several writers are the subject of C76 and C96. A document that is being written is a file with any contents that is no document. The elements of the array are not read here."
 ],
 "C98": [
  "proved",
  "HEAD requests are answered in these runs (an error of HEAD is taken for absence, C56); the changes of others are arbitrary functions on the bucket, each state being constrained as said. All parts are about zarr containers, which are the containers that S3 histories (C79) describe."
 ],
 "C99": [
  "proved",
  "All parts are about zarr containers. Clients that change the document of the same node are outside the claim: one of the changes can be lost (`c56_race_counterexample`, `c99_create_counterexample`). HEAD requests are answered (C56, `c56_head_counterexample`)."
 ],
 "C100": [
  "proved",
  "That a change can be lost is `c56_race_counterexample`. In a zarr v3 node the metadata and the attributes are in one document, so that metadata that others change meanwhile could be lost too; here they do not change them. HEAD requests are answered. That both of two clients that create the same dataset can get an object is `c99_create_counterexample`. That a group takes over the name of a dataset that another client creates meanwhile is `c100_create_counterexample`. That `require_group` can be refused for this reason is `c100_require_counterexample`."
 ]
}