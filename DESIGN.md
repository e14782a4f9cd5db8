# Formal model of constantinpape/z5 — design

## 1. Approach

The model is written in Lean 4 (core library only; no Mathlib module is imported), function by
function, from the C++ headers in `/repo/include/z5` and the Python layer in
`/repo/src/python/module/z5py`.  Each definition cites the lines it models.

Layers (all under `lean/Verif/`):

| Layer | Content |
|---|---|
| `Basic.lean` | outcome type `Res` (`ok`, `throw`, `ub`), 64-bit unsigned and 32-bit int arithmetic |
| `Lib/*` | mathematics used in proofs only: boxes of coordinates, row-major numbering, list lemmas |
| `Spec/*` | small, model-independent specifications used in theorem statements |
| `Model/*` | the model of the code |
| `Proofs/*` | lemmas |
| `Props/*` | the property theorems, one file per group of properties, each with non-vacuity examples |

Modelling conventions

* **Outcomes.** `Res.ok`, `Res.throw` (a C++ exception) and `Res.ub` (undefined behaviour:
  out-of-bounds access, division by zero, signed overflow).  A theorem that concludes `= .ok _`
  therefore also proves absence of undefined behaviour on that path.
* **Machine integers.** `size_t` arithmetic that can wrap is modelled with operations modulo 2^64
  (`wadd`, `wsub`, `wmul`); the `int` variables of `getCoordinatesInRoi` are modelled with
  truncation to 32 bits.  Buffer lengths and flat offsets into allocated buffers are `Nat`
  (a buffer that large cannot be allocated).
* **Elements.** An element type is a structure with a byte width, byte encoding (host memory
  representation, little endian), its inverse, a default value `T()` and the C++ `==`, which is
  *not* assumed reflexive or faithful (NaN, -0.0).
* **Compressors.** Datasets take a compressor as a parameter: a pair of functions with the law "for chunks up
  to a given size, compression that succeeds gives non-empty data that decompress to the chunk" (`Codec.LawfulFor`).
  C68 proves this law of the compressor classes of z5 from the documented contracts of the libraries.
* **Storage.** A dataset operation is a program (`Prog`) over atomic store actions (stat, read,
  write, erase of one key); programs are run sequentially, interleaved in any order (threads), cut at
  any point (crash), or inspected for writes (read-only handles).
* **Threads.** Per-chunk tasks of one call are run under *every* interleaving of their store actions;
  the reused per-thread scratch buffers have arbitrary content at the start of every task.
* **Mutexes and pools.** The shard mutex (C16) and the thread pool (C37, C38) are state machines; every
  step of every thread (lock, unlock, wait, notify, spurious wake-up) is an interleaving point.
* **JSON** documents are an inductive type; objects are association lists with unique keys.  The texts
  (nlohmann::json and Python's json, UTF-8) are a layer of their own, `Model/JsonText` (C80).
* **File system** (creation, attributes, classification): a function from paths to directories, JSON
  documents and other files (`Model/Fs.lean`).  A failed `ofstream` is silent, as in the code.
* **Object store** (`Model/S3.lean`): a bucket and a list of events that say, request by request, what
  others changed meanwhile, whether the request fails and whether it had its effect, how large a page is
  and which objects of a batch could not be deleted.  A theorem for all lists of events is a theorem for
  all behaviours of the service and of concurrent users.

Where a property is false of the code, the negation is proved with a concrete witness
(suffix `_counterexample`) and the version with an explicit guard is proved beside it.  Section 4 lists
them all: they are places where the code does less than its users may expect.

## 2. Per-property plan

| Id | What is modelled | How it is proved |
|---|---|---|
| C01 | `Blocking` id/coordinate conversion, strides | row-major numbering bijection, induction on dimensions |
| C02 | block extents, bounded chunk shape | arithmetic per axis, `Forall₂` lifting |
| C03 | `getBlocksOverlappingRoi`, `makeRegularGrid` odometer loop | odometer enumerates the box; membership iff overlap; nodup |
| C04 | `getCoordinatesInRoi` with 32-bit `int` | per-axis arithmetic under `< 2^31`; counterexample beyond |
| C05 | `checkRequestShape` with 64-bit wrap | iff under no-wrap; counterexample |
| C06, C07 | `copyView`, `fillView` loops on buffers with bounds checks | loop = fold over the box; pointwise lemma |
| C08–C12 | complete read/write paths as store programs | refinement invariant between store and abstract array, induction over histories |
| C13–C15 | interleavings of per-chunk programs | footprint-disjointness theorem for interleaved programs |
| C16 | mutex-protected read-modify-write | invariant over all interleavings; counterexample without lock |
| C17, C18 | shard build/parse/extract | induction over blobs; bounds from validation |
| C19, C20 | CRC-32C over `BitVec 32` | linearity and invertibility of the bit step |
| C21 | `shardId`, `shardSlot` | div/mod decomposition, induction on dimensions |
| C22, C23 | N5 header writer and readers | byte-level round trip; bounds of parser |
| C24 | endianness reversal | list reversal |
| C25 | `getChunkKey`, `join` | decimal rendering injective and digit-only; induction |
| C26–C28 | metadata (de)serialisers on JSON | case analysis on compressor/dtype, round-trip equalities |
| C29, C30 | attribute operations on JSON documents | map refinement by induction over histories |
| C31 | file modes and mutating operations | programs of read-only handles contain no write action |
| C32–C34 | chunk-level API | from the model definitions and the store invariant |
| C35, C36 | `removeTrivialChunks`, `unique*` | per-chunk task lemmas + interleaving theorem / merge lemma |
| C37, C38 | `parallel_foreach` batching, thread-pool state machine | list partition lemma; invariants over all schedules |
| C39, C40 | crash = prefix of a program's actions with a torn last write | footprint theorem; CRC/length checks on prefixes |
| C41 | varlen writer/reader | header round trip |
| C42 | mode flags, file-open decision table | case analysis |
| C43, C44 | Python slicing and `rectify_shape` over `Int` | case analysis with `omega`; counterexamples |
| C45 | create/open on a directory tree | state-machine model of nodes and metadata |
| C46 | `split`, `join` | induction |
| C47 | `for_each` helpers | C01–C03 and C37 |
| C48 | conversion through double (integers up to 2^53 exact) | arithmetic model of rounding |
| C49 | node classification | case analysis, invariant under attribute histories |
| C50 | S3 listing and deletion loops, existence and children | induction over pages / batches, for every list of events |
| C51 | `removeDataset` | per-chunk task lemma + interleaving theorem |
| C52 | every modifying operation of handles, factories and the Python layer | "only below this path" predicate, closed under the monad operations |
| C53 | every query of handles and of the Python layer | "leaves the state alone" predicate, closed under the monad operations |
| C54 | the chunk store over S3 (a write is one atomic request) | every chunk job reads and then makes at most one atomic action |
| C55 | the same programs with a fate for each request (served, answer lost, unanswered, HEAD failed) | a faulty job is a prefix of the faultless one |
| C56 | attribute calls over S3 requests | a combinator `Does`: for every list of reliable events a call returns its result, or throws because a request failed, or waits; then the same algebra of documents as C33 |
| C57 | creation and opening over S3 requests | `Does`; the pure part of reopening is shared with C45 |
| C58 | `visititems` over any container that has keys, items and relative paths; instances for files and S3 | the objects met are `walk`; induction on the depth, generic in the monad; listings by pages end after as many requests as entries |
| C59 | what documents say, after the zarr v2, zarr v3 and N5 specifications (`Spec/Formats.lean`), against `fromJson`, `toJson`, `getZarrChunkConfig` | inversion of the readers and writers, case analysis over codecs; unlike the round trips C26–C28 this does not let reader and writer agree on something else than the format |
| C60 | the keyword arguments of Python's `create_dataset`, from defaults and checks in `dataset.py` to the metadata document (`Model/PyDataset.lean`); what is asked for is in `Spec/PyDataset.lean`, what documents say is that of C59 | inversion of the chain of functions for the success case; the options of each compressor by case analysis over association lists |
| C61 | `require_dataset` over the state of the file system | evaluation of the four cases; repetition from C45 (opening what was created) and C49 (datasets are not groups) |
| C62 | `writeFileMetadata`, `writeGroupMetadata`, `writeDatasetMetadata` on a node that exists, of `Model/Factory` and `Model/S3Nodes` | evaluation of the read-modify-write on the document, member by member |
| C63 | chunk store programs become programs on the tree of directories (`Model/FileStore.lean`), in which the directories of nested chunks are made one by one and opening a file fails without its directory; `Model/Opened.lean`: plain and sharded datasets together | simulation: a state of the tree program corresponds to a state of the store program; the invariant says that directories on the way to chunks are never anything else and never disappear, so every opening finds its directory; then C08-C11 |
| C64 | `Model/Opened.lean` (objects with elements from `makeDataset`), `Model/Factory.lean`, `Model/Attributes.lean`, `Model/FileStore.lean`; histories in `Spec/Persist.lean` | invariant `Carries` (documents say the same, chunk files represent the replay of all writes) by induction over the history; objects opened from the same documents differ only in compressor settings, mode and unused key settings (`Dataset.Alike`), and the representation of data does not depend on these |
| C65 | `Model/Remove.lean` (`removeDataset` on the tree of directories, `__delitem__`), `Model/Factory.lean` (`remove` of handles) | the invariant of C64 says what is at the path of the dataset and that `isSubGroup` answers no; removal of chunks stays below the path (`OnlyChunks`), each removal succeeds in an intact store, `remove_all` does the rest |
| C66 | all of the model: `Model/Python.lean`, `Model/PyDataset.lean`, `Model/Visit.lean`, `Model/Remove.lean`, `Model/Opened.lean`, `Model/FileStore.lean`, `Model/Attributes.lean`; the tree and the histories are in `Spec/Container.lean` | an invariant relates the tree to the file system (`Container.Inv`): each group has its documents, each array is in a session (C64) with the recorded writes, or was there before (`History.found`, C85) and is in a history of uses (C83), nothing else is below groups but metadata; every constructor of `History` preserves it; each observation is computed from it |
| C67 | Model/PyAttrs.lean: AttributeManager over the attribute functions of C29/C30; the mixin methods of collections.abc.MutableMapping | each operation is run on the attributes of the node and compared with a relation DictStep on maps; induction over histories; clear by induction over the number of attributes |
| C68 | Model/Compressors.lean: the classes in compression/, with the libraries as parameters; loops with fuel that the contracts bound | case by case from the contracts; the xz loops by induction over a measure that the contract gives; truncated sizes by arithmetic modulo 2^32 |
| C69 | Model/Pickle.lean: the Python objects with parents, names, separators and threads; __reduce__ and the unpickle functions; Spec/Pickle.lean: what users see of an object, and the objects obtained from a file | invariant over the calls that give objects: the components of the name are the path below the file; the navigation by induction over the components with c66_getitem; c69_methods relates the objects to the groups of C66 |
| C70 | Model/PyScalar.lean: write_scalar and the casts it selects by the name of the data type, with nb::cast as a parameter; double to float rounding; Spec/PyScalar.lean: which value a number is stored as (Stores), the contract of nb::cast | case by case for the data types; rounding to nearest from division with remainder; with C43 for the elements that are selected |
| C71 | Model/PyChunk.lean: readPyChunk and writePyChunk on the model of datasets, with the uninitialised memory of the result as a parameter; Spec/PyChunk.lean: what chunks hold after calls (ChunkCalls, ChunkContent) | induction over the calls with an invariant for the bytes of each chunk (missing, decodes as a regular chunk, decodes as a varlen chunk); keys of different chunks differ |
| C72 | Model/PyRegion.lean: the Python methods and the bindings on the model of datasets; Spec/PyRegion.lean: corners, selections and what numpy does with them | conversion of the coordinates inverted, then the theorems on reading and writing regions (C05, C08-C11) |
| C73 | Model/PyProps.lean, Model/PyDataset.lean: the properties; Spec/PyProps.lean: what they have to report, in terms of the descriptions of C59 | the record of an opened dataset holds the description (C59), that of a created one what was asked for (C60); each property is computed from the record |
| C74 | Spec/PySession.lean: what numpy's assignments do; Model/Index.lean (indices), Spec/Container.lean (histories) | histories give what reading and writing of regions do (C66); an index selects a region, or nothing; read-only tasks are programs that change nothing and end in an exception on every path |
| C75 | `Model/Steps`: programs of single steps (`FsProg`) for the attribute functions, the creation and the removal of nodes; a document is truncated, written in pieces (`Disk.torn`), complete; directories are made one by one; `remove_all` deletes file by file in any order that removes what is in a directory before the directory | `crash n` of a program is what is there after n steps; each program passes only through: the state before, a torn document, the state after (`OneDoc`), or states with the first k directories (`Fs.made`); reading a torn document throws; the complete run is the function of the other models (`Runs`) |
| C76 | `Model/Steps`, now with the readers and `openDataset` as programs of single steps; `Spec/Concurrent`: calls, processes as sequences of calls with their exceptions caught, interleaved with each other and with the tasks of a region operation (`Prog.onFiles`) | footprints: each program depends only on the paths it may touch and changes only those it may write, while the directories above stay (`FsProg.Local`); steps of processes with disjoint footprints can be dropped from a schedule (`FsProg.interleave_apart`), so that every process runs as if alone; alone its steps are the function of the other models (`Runs`) |
| C77 | `Model/S3Python`: `S3File.__init__`, `_init_args`, unpickling, on the handles of `Model/S3` and the factory of `Model/S3Nodes` | the part behind the removal by cases on the mode (`S3M.Does`), the removal by C50 (now with a bound on its requests); invariants of all requests (`S3M.Keeps`) for what is left alone and for interruptions |
| C78 | `Model/S3Data`: the objects of chunks and the requests on them; `Model/S3Nodes` for handles and documents; `S3Sessions` in `Spec/S3Persist` says which histories are meant | the tasks on the bucket simulate those on the store of C11-C13 exactly (`interleaveS3_eq`), so the refinement of regions carries over; invariant `S3Carries` (documents, names and data) over all histories |
| C79 | `Model/S3Group`: groups of z5py on S3 and `removeDataset`; `S3History` in `Spec/S3Container` says which histories are meant and which tree they make | invariant over all histories (`inv_of_history`): documents, names and data of every node are as in the tree, and every object below the root belongs to a node; an array was created and is in a session (C78), or was there before (`S3History.found`, C86) and is in a history of uses (C84); each call is then computed from what it finds |
| C80 | `Model/JsonText`: UTF-8, the scanner and parser of nlohmann::json (strict and not) and of Python, the three ways of writing; `Spec/JsonText`: which values are kept, what becomes of the others | reading undoes writing by induction over the value, for any text that follows; what is read from a text is read from every longer text (`parse_append`), so if a part were readable, the whole would have something behind its end |
| C81 | `Spec/Exchange`: chunk names, element orders, byte orders, N5 headers, shards, all from the format documents; the model is the one of C01 and C30 | conforming files are exactly the files that hold an array in the sense of the model (`n5_iff_holds`, `holdsB_of_zarr`, `zarr_of_holdsB`, `holds_of_sharded`, `sharded_of_holds`); the C order and F order of the specification are related to the strides of the code by induction over the axes, the index of a shard to its entries by parsing what any writer laid out (`parse_layout`) |
| C82 | `Model/JsonText` (see C80); `Spec/JsonGrammar`: the grammar of RFC 8259 as inductive relations between texts and values | soundness by induction over the steps of the parser (`parse_of`), completeness by mutual induction over the derivation with a bound for the number of steps (`of_denotes`); UTF-8 decoding is inverted in both directions (`decode_of`, `decode_encode_append`) |
| C83 | `Spec/Foreign`: a tree of files with bytes and when it holds an array (`RawFs.HoldsArray`, with `Spec/JsonGrammar`, `Spec/Formats`, `Spec/Exchange`); `RawFs.view`: what the library reads of it | composition of C82 (texts), C59 (documents), C81 (elements) and C46/C63 (files), and back (`c83_bytes`) |
| C84 | `Spec/S3Foreign`: a bucket with bytes in objects and when it holds an array (`RawBucket.HoldsArray`, with `Spec/Foreign`); `RawBucket.view`: what the library reads of it; `S3Uses`: histories | composition of C82 (texts), C59 (documents), C81 (elements) and C78 (calls on S3), induction over histories, and back (`c84_bytes`) |
| C85 | `Spec/Container`: when the bytes in a directory are a container with the tree `T` (`RawFs.HoldsContainer`, with `Spec/Foreign`); `History.found`: a history may start there; `RawFs.Stores`: the bytes for a state | `History.found` meets the invariant of C66; conversely the invariant gives, for created arrays by induction over their sessions, documents and files of the format (`Sessions.stated`, C59, C81), and so a container in the bytes |
| C86 | `Spec/S3Container`: when the bytes in a bucket are a container with the tree `T` (`RawBucket.HoldsContainer`, with `Spec/S3Foreign`); `S3History.found`: a history may start there; `RawBucket.Stores`: the bytes for a state | `S3History.found` meets the invariant of C79; conversely the invariant gives, for created arrays by induction over their sessions, documents and objects of the format (`S3Sessions.stated`, C59, C84), and so a container in the bytes |
| C87 | `Model/Index` over `Model/S3Data`; the histories of C79 | from C79 (what region reads and writes do) and the theorems on indices of C43, as C74 |
| C88 | `Model/FileStore` (the file operations of the tasks), the histories of C66 | each task works on one file: the state after any schedule is given by what each task does alone (`done_of_finished`, an invariant over schedules that allows for directories made by others); the same state is reached by the calls one after the other, for which C66 holds |
| C89 | `Model/S3Together` (the requests of tasks of several datasets), the histories of C79 | each task works on one object: what a task and its object come to is kept by every step of every task (`interleave_alone`); a bucket in order is determined by its objects; the same bucket is reached by the calls one after the other, for which C79 holds |
| C90 | `Model/Alongside` (two groups of tasks at the same time), the histories of C66 and C79, the calls of C88 and C89 | tasks that only read do not change the file system and see only the files of the region, so each group runs as if alone (`both_reads`); the writing tasks leave all other files alone under every schedule (`kept_of_apart`, `kept_objects`); then C66, C79 for the reading call and C88, C89 for the writing calls |
| C91 | `Model/S3Together`, the histories of C79, the bytes of C86 | a task sends at most one request that changes its object, as its last one (`OneStep`), so its object is old or new at every point (`stopped_objects`); two states of an array that differ in whole objects can be mixed object by object (`ArrayDesc.IsStored.mix`, which is about the format only); with the documents as before this makes a container (`Inv.between`), from which a history can start |
| C92 | `Model/FileStore`, `Spec/Together`, the histories of C66, the bytes of C85 | at every point of the schedule each task has only touched its own file and the directories above it (`During`, from C88), whatever it has written so far; files of chunks can be taken from two states of an array or left out, file by file (`ArrayDesc.IsStored.mend`, which is about the format only); with the documents as before this makes a container (`Inv.mend`), from which a history can start |
| C93 | the interrupted calls of C91 and C92 | only chunks that the calls write may be missing (`c93_salvaged`: a file is that of one chunk only, `ChunkFile.unique`), and the calls write all their elements again; elsewhere the elements are old or new, which is the same outside the regions (`Tree.Salvaged.again`) |
| C94 | `S3PyGroup.delItem`, `S3Handle.remove` with the events of C50 | the call changes only objects below the name (`delete_keeps`) and is a sequence of deletions (`remove_only`); the rest is the invariant of C79 for the nodes elsewhere, and the bucket without the objects below the name is that of a successful call (`history_without`); while chunks are deleted, every step is a `remove` of the history (`c94_chunks`) |
| C95 | the `Stepwise` programs of C75 in the containers of C66 | the crash theorems of C75 say which paths can have changed; the nodes elsewhere are the same by the invariant of C66 (`Container.inv_of_history`, `serves_of`); what is left below the node is removed by `remove`, and the file system without it is that of a history (`history_prune`, `onlyNew_without`) |
| C96 | the `Stepwise` programs of C75 as processes in the containers of C66 | an invariant of all processes together with their stages (looking, making the directory, writing the document, over), in `Race.Inv`: a directory without document has a process that is going to write it, a document that is incomplete a process that is writing it, and a complete one a process that has ended well (`Race.race`); the programs are shown to have this form in `Proofs/RaceSteps.lean` |
| C97 | the `Stepwise` programs of C75 as processes in the containers of C66 | the states of the writer are those in which it can crash (C75, C96); `FsProg.Meets` says what a program that only looks can end with if every step may see another one of these states, and `FsProg.watch` that this covers every interleaving; the readers are then followed look by look |
| C98 | `S3M` programs, in which an event before each request changes the bucket (C55) | `S3M.Looks` says what a call that changes nothing can end with if each request may meet another state; it composes over `bind`; the calls are then followed request by request, and the results are compared with those in a bucket at rest |
| C99 | `S3M` programs, in which an event before each request changes the bucket (C55) | `S3M.Edits` says that a call makes one change at one moment; a call that looks (`S3M.Looks`, C98) and then puts a document makes one change; what is put depends on the document of the node alone, so it is what the call puts alone (C56), which is a step in the history of the container (C79) |
| C100 | `S3M` programs, in which an event before each request changes the bucket (C55) | the call looks (`S3M.Looks`) and then puts one document (`S3M.Edits`, C99); the document is computed from the one that was read, and put into the bucket that is there then; creation of a dataset or group is looks that can refuse it, then one PUT (`S3M.Tries`) |

## 3. What is modelled, file by file

Paths below `/repo/include/z5` unless they begin with `src`.

| Code | Model | Left out |
|---|---|---|
| `util/util.hxx`, `util/blocking.hxx` | `Model/Util`, `Model/Blocking` | printing |
| `handle.hxx`, `filesystem/handle.hxx` | `Model/Handle` (chunk keys, shapes), `Model/Attributes` (files, groups, datasets) | `std::filesystem` errors, links, permissions; paths with `.` and `..`; that `isZarr` of a dataset handle is cached on first use |
| `multiarray/*` | `Model/View` (copy, fill), `Model/Access` (subarray, scalar) | views are shape, strides and offset into a buffer |
| `generic/dataset.hxx`, `filesystem/store.hxx`, `s3/store.hxx` | `Model/Dataset`, `Model/Prog` (`Backend`), `Model/FileStore` (directories of nested chunks), `Model/Opened` (the dataset object) | a directory or a JSON document in place of a chunk is an error for every operation |
| `generic/sharded_dataset.hxx`, `util/sharding.hxx` | `Model/Sharding`, `Model/Dataset`, `Model/Access`, `Model/Mutex` | |
| `util/format_data.hxx` (headers, endianness) | `Model/Bytes`, `Model/Format` | |
| `util/crc32c.hxx` | `Model/Crc32c` | |
| `compression/*` | `Model/Compressors`; the settings in `Model/Types` | inside the libraries (contracts in `Spec/Compressors`); `std::bad_alloc`; how much of a buffer a failed call overwrites |
| `util/threadpool.hxx` | `Model/Pool`, `Model/BatchSize`, `Model/Alongside` (the tasks of two calls at the same time) | failing thread creation |
| `util/for_each.hxx`, `util/functions.hxx` | `Model/ForEach`, `Model/Functions`, `Model/Remove` (`removeDataset` on directories) | |
| `types/types.hxx`, `metadata.hxx` | `Model/Types`, `Model/Metadata`, `Model/Json`, `Model/Double` | a build without some compressor |
| `attributes.hxx`, `generic/attributes.hxx`, `filesystem/attributes.hxx` | `Model/Attributes`, `Model/JsonText` (the text) | locales with another decimal point |
| `factory.hxx`, `filesystem/factory.hxx`, `generic/metadata.hxx`, `filesystem/metadata.hxx` | `Model/Factory` | |
| `s3/handle.hxx` | `Model/S3`, `Model/S3Nodes` (files, groups, datasets), `Model/S3Data` (chunks), `Model/S3Together` (chunks of several datasets) | clients, credentials, request bodies |
| `s3/attributes.hxx`, `s3/metadata.hxx`, `s3/factory.hxx` | `Model/S3Nodes`, `Model/JsonText` (the text) | see there |
| `src/python/module/z5py/dataset.py` (`_create_dataset`, `_require_dataset`, compression options), `group.py` (`create_dataset`, `require_dataset`) | `Model/PyDataset` | numpy's conversions of shape and data type, `n_threads` |
| `src/python/module/z5py/file.py`, `group.py` | `Model/Python`, `Model/Visit`, `Model/Remove` (`__delitem__`), `Model/S3Python` (`S3File`), `Model/S3Group` (groups on S3) | a callback of `visititems` that changes the container |
| `__reduce__`, `_unpickle_file`, `_unpickle_group`, `_unpickle_dataset`, `_navigate`, `file` in `file.py`, `group.py`, `dataset.py` | `Model/Pickle`, `Model/S3Python` (`S3File`) | groups and datasets of an `S3File`; pickle's own format |
| `src/python/module/z5py/shape_utils.py`, `dataset.py` (indexing) | `Model/Index` | `np.asarray`, conversions of arrays to other number types, index items other than integers, slices and ellipses |
| `src/python/lib/dataset.cxx` (`write_scalar`, `writePyScalar`), `dataset.py` (`__setitem__` with a number) | `Model/PyScalar` | `nb::cast` (a contract), numbers that are neither `int`, `float` nor `complex` |
| `src/python/lib/dataset.cxx` (`readPyChunk`, `writePyChunk`), `dataset.py` (`read_chunk`, `write_chunk`) | `Model/PyChunk` | the conversion of arrays by nanobind (which arrays are accepted is a case of `ChunkArg`) |
| `src/python/lib/dataset.cxx` (`readPySubarray`, `writePySubarray`), `dataset.py` (`read_subarray`, `write_subarray`, `read_direct`, `write_direct`) | `Model/PyRegion` | numpy's own indexing and assignment with slices (contracts in `Spec/PyRegion`), memory exhaustion |
| `src/python/module/z5py/dataset.py` (properties), `src/python/lib/dataset.cxx` (the functions behind them) | `Model/PyProps`, `Model/PyDataset` | `attrs` (see C67), `path`, numpy's type objects (the name of the type stands for it) |
| `generic/attributes.hxx`, `generic/metadata.hxx`, `filesystem/handle.hxx` (`create`, `remove`), `filesystem/factory.hxx` step by step | `Model/Steps` | what a crash of the operating system loses (the model is a killed process: the order of the writes is kept); that a torn document does not parse is C80; several processes (C76): one common file system, each access to a file or directory is one step, no caches of network file systems |
| `src/python/module/z5py/attribute_manager.py`, `src/python/lib/attributes.cxx` | `Model/PyAttrs`, `Model/JsonText` (`json.dumps`, `json.loads`, `parse`, `dump`) | custom encoders and decoders, keys that are not strings |

Simplifications that hold everywhere

* A read of a file is atomic; a write is byte by byte, and may be interrupted after any byte.
  On S3 each request is atomic.
* The scratch buffer of a task has arbitrary content at its start (a universally quantified variable).
* Delimiters of chunk keys that contain `/` but are not `/` are not modelled (they create directories).
* `std::set` and `std::map` with an order that is not strict weak on the elements are undefined behaviour.
* The `for_each` helpers on a sharded dataset are over-approximated: every interleaving of store actions,
  also those the shard mutex excludes.
* Doubles are multiples of 2^-1074 with a sign; NaNs are not told apart.

Not modelled at all: the GCS backend (a stub in the code), the rest of the nanobind glue, the examples, the compression libraries
(contracts, see section 2), logging.

## 4. Where the code and the expectation differ

Each line is a theorem (a negation with a concrete witness, or for a whole family of inputs).

| Theorem | What happens |
|---|---|
| `c02_bounded_shape_outside_grid_counterexample` | the bounded shape of a chunk outside the grid wraps around |
| `c03_empty_region_counterexample`, `c47_empty_roi_counterexample` | an empty region visits a chunk |
| `c03_rank_counterexample` | `getBlocksOverlappingRoi` does not compare the ranks of its arguments and reads beyond the end of the shorter one |
| `c04_int_truncation_counterexample` | coordinate differences are computed in 32-bit `int` |
| `c05_wrap_counterexample` | offset + extent ≥ 2^64 wraps and is accepted |
| `c83_null_fill_counterexample` | opening an integer array of zarr v2 with `"fill_value": null` is undefined behaviour (NaN is converted to an integer) |
| `c84_root_counterexample` | an array that is the bucket itself (documents and chunks without a prefix) is opened, but its chunks are looked for in `/0`, `/1` …: it reads as the fill value |
| `c12_nan_counterexample` | a chunk of NaN fill values is stored |
| `c15_lost_update_counterexample`, `c15_sharded_lost_update_counterexample` | concurrent region writes inside one chunk (one shard) lose updates |
| `c16_mixed_lost_update_counterexample`, `c16_reader_counterexample` | region writes do not take the shard mutex; readers may see an intermediate state |
| `c18_half_empty_counterexample` | a shard index entry of which only one half is the empty marker is accepted |
| `c21_non_multiple_counterexample` | shard extents that are not multiples |
| `c22_truncation_counterexample` | extents above the header fields are truncated |
| `c23_mode_disagreement_counterexample`, `c23_readChunk_overflow_counterexample`, `c23_partial_write_overflow_counterexample` | corrupt N5 headers: the two readers disagree, buffers overflow |
| `c25_digit_delimiter_counterexample` | a delimiter of digits makes keys collide |
| `c27_fill_counterexample`, `c27_zlib_counterexample`, `c28_zlib_counterexample`, `c28_fill_counterexample` | metadata that does not survive |
| `c30_group_handle_counterexample` | a group handle on a dataset's path may overwrite N5 metadata |
| `c32_short_index_counterexample`, `c32_sharded_read_counterexample`, `c33_sharded_counterexample` | chunk calls with short indices, and on sharded datasets |
| `c35_no_value_changes_reads_counterexample`, `c35_nan_counterexample`, `c35_sharded_race_counterexample` | `removeTrivialChunks` |
| `c36_padding_counterexample`, `c36_zeros_counterexample` | `uniqueWithCounts` counts padding; -0.0 and 0.0 |
| `c37_skips_rest_counterexample` | an exception skips the rest of its batch |
| `c37_batch_size_counterexample` | with 2^35 items and two threads the conversion of the batch size to `int` overflows (undefined behaviour); up to 2^32 items for each thread it is fine |
| `c39_sharded_no_repair_counterexample` | a torn shard cannot be repaired by writing its chunks again |
| `c40_torn_raw_zarr_counterexample` | a torn raw chunk may be read silently |
| `c41_partial_write_overflow_counterexample` | a region write to a long varlen chunk overflows a buffer |
| `c41_s3_not_reported_counterexample` | on S3 a varlen chunk is not reported; reading it with a buffer of the reported size overflows |
| `c42_version_counterexample`, `c42_no_version_counterexample`, `c42_format_counterexample` | versions and formats in `File.__init__` |
| `c43_first_counterexample`, `c43_start_counterexample` | `ds[-n]` fails; `ds[-m:]` with m > n is empty |
| `c44_shapes_counterexample`, `c44_accepts_counterexample` | incompatible shapes are accepted, compatible ones rejected |
| `c45_leftover_counterexample`, `c45_format_counterexample` | a failed creation leaves a directory; formats other than 2 and 3 |
| `c46_empty_delimiter_counterexample` | an empty delimiter never ends |
| `c48_large_counterexample` | large integer fill values |
| `c48_float_overflow_counterexample` | a fill value beyond the largest `float` in a dataset of `float`: the conversion is undefined behaviour |
| `c49_named_attributes_counterexample`, `c49_both_compressions_counterexample`, `c49_implicit_parent_counterexample`, `c49_reserved_name_counterexample` | classification of nodes |
| `c50_failed_object_counterexample`, `c50_keys_error_counterexample`, `c50_in_error_counterexample` | errors of the object store that are not noticed |
| `c52_absolute_counterexample` | an absolute name leaves the container |
| `c54_files_counterexample` | in files an interrupted write may leave a chunk that is neither old nor new |
| `c55_head_read_counterexample`, `c55_head_write_counterexample` | a failing HEAD request is taken for a missing chunk: reads deliver fill values, writes lose elements |
| `c56_head_counterexample`, `c56_race_counterexample` | a failing HEAD request sends attributes to the wrong document; concurrent changes of attributes are lost |
| `c57_n5_group_counterexample`, `c57_throws_counterexample`, `c57_head_counterexample`, `c57_race_counterexample` | creation on S3: an N5 group is not stored; an empty shape blocks the key; failing HEAD requests; concurrent creations |
| `c58_implicit_parent_counterexample`, `c58_s3_listing_counterexample`, `c58_s3_empty_name_counterexample` | `visititems` throws on a parent that `create_group` made without metadata; on S3 it leaves out members when a listing fails, and recurses without end on an empty name |
| `c59_endian_counterexample`, `c59_index_counterexample`, `c59_codecs_counterexample`, `c59_transpose_counterexample` | zarr v3 documents that are not supported are accepted and read as something else |
| `c60_gzip_counterexample` | `compression="gzip"` in zarr v2 creates a dataset with zlib compression |
| `c60_clevel_counterexample` | the option `clevel` of blosc is accepted in zarr v2 and N5 and has no effect |
| `c60_shards_counterexample` | shards of whole chunks are refused if the chunks are larger than the array |
| `c60_empty_counterexample` | creating a dataset with an axis of length 0 divides by zero |
| `c61_again_counterexample` | the second of two identical calls of `require_dataset` raises a `TypeError` if the chunks are larger than the array |
| `c61_parents_counterexample` | `require_dataset("a/d")` leaves `a` without metadata in zarr, so it is not a group |
| `c62_n5_counterexample`, `c62_s3_n5_counterexample` | writing the metadata of an N5 dataset replaces `attributes.json`, so user attributes are lost |
| `c63_odd_delimiter_counterexample` | a zarr dataset whose dimension separator contains `/` but is not `/` can be created, but `Chunk::create` makes no directories for it, so no chunk can be written |
| `c64_intermediate_group_counterexample` | opened from a directory that `createDataset("raw/d")` made on the way, a zarr dataset with delimiter "/" is opened with delimiter "." and reads as empty, because that directory has no `.zgroup` |
| `c65_sharded_race_counterexample` | `removeDataset` of a sharded dataset with two threads can throw `std::runtime_error` on an intact store, after removing some chunks: looking for a chunk takes no lock and reads a shard that another thread is writing |
| `c65_torn_shard_counterexample` | a sharded dataset with one damaged shard cannot be deleted by `removeDataset` or `del`, because the shard is parsed before it is removed |
| `c65_slash_counterexample` | `del group["/"]` deletes the group itself |
| `c66_through_array_counterexample` | `f.create_group("d/x")` makes a group inside the directory of the array `d` |
| `c66_reserved_name_counterexample` | `f.create_group(".zattrs")` succeeds, and then the attributes of the container cannot be read |
| `c67_del_missing_counterexample` | `del attrs[k]` of a key that does not exist does not raise KeyError (attribute_manager.py:90-91, json `erase`). |
| `c67_clear_n5_file` | `clear()` of the attributes of an N5 file always raises, possibly after it removed some of them: the key `n5` is listed but cannot be removed. |
| `c68_zlib_4GiB_counterexample` | With stock zlib (not libdeflate) a chunk of exactly 4 GiB is compressed and decompressed without an error, and its data are lost: `avail_in` is `uInt` (zlib_compressor.hxx:154, 187). |
| `c68_bzip2_4GiB_counterexample` | The same with bzip2 (bzip2_compressor.hxx:50, 88). |
| `c68_bzip2_buffer_counterexample` | The output buffer for bzip2 has 1% of the number of elements, rounded down, times `sizeof(T)`, instead of 1% of the bytes (bzip2_compressor.hxx:32-33): for 99 elements of 8 bytes it is 7 bytes short of what the library documents, and compression may fail. |
| `c68_blosc_short_input_counterexample` | `blosc_decompress_ctx` is not told the length of its input: a chunk file of less than 16 bytes is read beyond its end (blosc_compressor.hxx:50-63). |
| `c68_short_data_counterexample` | A chunk that decodes to fewer bytes than expected is accepted; the rest of the buffer keeps what it had. |
| `c69_no_parent_counterexample` | `f.create_group("a/b")` (and `require_group`) in a zarr container without `a` succeeds; the group it returns can be pickled, but unpickling raises, since `a` has no metadata. |
| `c69_absolute_counterexample` | `f.create_group("/b")` creates the group in the root directory of the file system; the object it returns is pickled as `b` of the file, and unpickling it is a `KeyError` (group.py:167 joins the name as given). |
| `c70_too_large_counterexample` | An integer that does not fit in the 64-bit type of the sign of the data type, e.g. `ds[:] = -1` for every unsigned data type or `2**63` for `int64`, is converted to a double and then to the data type, which does not have the value: undefined behaviour (dataset.cxx:91-96). |
| `c70_float_counterexample` | NaN, infinities and floats with an integral part beyond 64 bits assigned to integer data types: undefined behaviour. |
| `c70_rounded_counterexample` | `-2**63 - 1` assigned to `int64` is stored as `-2**63`, since it is rounded to a double first. |
| `c70_complex_dataset_counterexample` | No number can be assigned to a dataset of complex numbers: its `dtype` raises, since the types have no name in `dtypeToN5()` (dataset.cxx:236). |
| `c71_shape_ignored_counterexample` | `write_chunk` checks the number of elements, not the shape: an array of shape (4,) is accepted for a chunk of shape (2, 2). |
| `c71_s3_varlen_counterexample` | On S3, `read_chunk` of a chunk that was written with `varlen=True` writes past the end of its result, since `checkVarlenChunk` does not look at the header there. |
| `c71_full_chunk_counterexample` | `read_chunk` of an N5 chunk at the end of the array, stored by another program in full size, writes past the end of its result. |
| `c71_race_counterexample` | If another thread or process writes a longer varlen chunk between the look at the header and the read, `read_chunk` writes past the end of its result. |
| `c72_short_start_counterexample` | `write_subarray` reads past the end of a vector if `start` has fewer coordinates than the array has axes. |
| `c72_long_start_counterexample` | Additional start coordinates of `read_subarray` are ignored: `read_subarray([0, 7], [2])` is accepted. |
| `c72_wrap_counterexample` | `read_subarray([2**64 - 1], [2**64 + 1])` is accepted, since the sum in the check wraps around; a chunk outside the grid is requested. |
| `c72_step_ignored_counterexample` | `read_direct` and `write_direct` ignore the steps of slices. |
| `c72_open_slice_counterexample` | `read_direct` and `write_direct` raise a `TypeError` for slices without start or stop, which h5py accepts. |
| `c73_not_passed_on` | `compression` and `compression_opts` of a dataset with blosc are never accepted by `create_dataset`: they contain `nthreads` and `level`, which zarr and N5, respectively, do not know as options. |
| `c73_bzip2_counterexample` | A zarr v2 dataset created with `compression="bzip2"` reports `"bz2"`. |
| `c73_gzip_counterexample` | A zarr v3 dataset created with `compression="gzip"` reports `"zlib"`. |
| `c73_raw_counterexample` | `compression_opts` of a dataset without compression raises an `AttributeError` (`None` has no `pop`). |
| `c75_attributes_lost_counterexample` | a crash while an attribute is added to a zarr container: all its attributes are lost, and no call of the library can read or replace them (`JsonIO::write` truncates the file and then writes it) |
| `c75_dataset_lost_counterexample` | a crash while an attribute of an N5 dataset is set: the dataset cannot be opened any more, with all its chunks in place |
| `c75_create_stuck_counterexample` | a crash in `create_dataset` of a zarr container: the dataset cannot be opened, not created again and not deleted with `del`, although `in` says it exists |
| `c75_create_group_counterexample` | a crash in `create_dataset` of an N5 container: the name is taken for a group |
| `c75_create_file_counterexample` | a crash while a zarr container is created: it is taken for an N5 container |
| `c75_remove_counterexample` | a crash while a zarr dataset is removed: a directory is left that `del` cannot remove |
| `c76_lost_update_counterexample` | two processes set different attributes of one node at the same time: both calls succeed and one attribute is lost (read, change and write are not atomic) |
| `c76_torn_read_counterexample` | attributes are read while another process writes them: the reader gets a JSON exception |
| `c76_create_twice_counterexample` | two processes create the same dataset at the same time: both succeed, the second overwrites the metadata of the first, and the dataset object of the first process has the wrong shape |
| `c77_n5_counterexample` | `S3File` does not look at the metadata: an N5 container, or any prefix with objects below it, is opened, also with `use_zarr_format=True` (the local `File` raises an exception) |
| `c77_truncate_counterexample` | `S3File(mode='w')` when the service fails to delete an object: the call succeeds, the object stays, and the container has no document |
| `c77_race_counterexample` | two processes open with `'x'` at the same time: both succeed |
| `c78_intermediate_group_counterexample` | a zarr dataset created on S3 with the key `raw/d` and opened from `raw`: it has other names for its chunks, and reads as empty |
| `c79_slash_counterexample` | on S3 `f.create_group("/x")` stores the group as `c//x`; afterwards `"/x" in f` is false |
| `c80_integer_counterexample` | a Python integer of more than 64 bits comes back as a float |
| `c80_nan_counterexample` | a NaN in attributes that C++ code writes is `null` afterwards (Python refuses it) |
| `c80_number_counterexample` | a document that is a mere number (z5 writes none) is not protected against being read while it is torn |
| `c94_stuck_counterexample` | a `del` of a group on S3 that failed has deleted the document of the group, and not what is in it: the group can neither be opened nor deleted with `del` |
| `c96_different_counterexample` | Two processes that create datasets of different shapes with the same name can both end well: `create` looks whether the directory exists and then calls `create_directories`, which accepts an existing directory. The object of the first then has a shape that is not that of the dataset. |
| `c96_torn_counterexample` | For zarr of version 3 one of two processes that create the same group can fail with a parse error instead of the error that the group exists, because `writeV3GroupMetadata` first reads `zarr.json`, which the other process is writing. |
| `c97_open_counterexample` | A call that opens a dataset while another process creates it can end well with an object that takes the chunk keys to be those with dots, although the dataset has those with slashes: `openDataset` reads the chunk keys from `.zarray` before it exists, which silently gives the defaults, and then the metadata from it once it is there. What is read through this object is the fill value, and what is written through it is in chunks that nobody else finds. |
| `c97_torn_counterexample` | A process that reads the attributes of a node while another one writes them can fail with a parse error: the document is written in place. |
| `c98_open_counterexample` | A call that opens a dataset on S3 while another client creates it can end well with an object that takes the chunk keys to be those with dots, although the dataset has those with slashes: the chunk keys and the metadata are read by two requests, and a document that is missing at the first of them silently gives the defaults (`include/z5/factory.hxx`, `getZarrChunkConfig`). |
| `c99_create_counterexample` | Two clients that create a dataset of the same name on S3 at the same time can both succeed: the check that nothing exists and the writing of the metadata are two requests. The client whose document is overwritten keeps an object with the wrong shape. |
| `c100_create_counterexample` | A group of zarr v3 that is created on S3 while another client creates a dataset of the same name takes over its document: both calls succeed, the node is a group that has a shape, and the dataset cannot be opened any more. |
| `c100_require_counterexample` | `require_group` in Python on S3 is refused with `invalid_argument` if another client creates the group between the look and the creation; called again, it succeeds. |

## 5. Trusted base

* Lean 4.33.0 kernel.  No axioms are added.  Every theorem depends on at most `propext`,
  `Classical.choice` and `Quot.sound`.  No `sorry`, `native_decide` or `bv_decide`.  `decide +kernel`
  is used for concrete examples and counterexamples only; it is evaluated by the kernel.
* The faithfulness of the model to the code, established by reading only.
* The contracts of the compression libraries (`Spec/Compressors.lean`), taken from their documentation.  They are
  hypotheses of the theorems of C68; libraries that meet them are constructed in `Props/Compressors.lean`.
* That nlohmann::json and Python's json read and write as they document (`Model/JsonText`), and that the digits they
  write for doubles read back as the double (`Digits.Lawful`); the C++ compiler and standard library, Python, numpy and nanobind.

## 6. Tests of the theorems

`seeded/LOG.jsonl` records edits of the model that a realistic bug would make, and which property
theorems fail to prove after each.  A theorem counts as failed if its proof, or a lemma it depends on,
no longer checks.  Edits that survived led to stronger theorems, named in the log.
