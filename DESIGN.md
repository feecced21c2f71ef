# Formal model of earthkit-regrid: design

Source: `/repo` (python, pinned commit), read as text only.
Model and proofs: Lean 4.33.0 with Mathlib, under `lean/Verif`.
Properties: `properties.jsonl`. Status of each one: `MANIFEST.json`. Mutation log: `seeded/LOG.jsonl`.

## Layout

One directory per component, `lean/Verif/<Component>/`:

* `Model.lean`  – function-by-function model; every definition cites file and lines.
* `Spec.lean`   – the independent specification vocabulary (no model helpers in it).
* `Lemmas.lean` – helper lemmas.
* `Props.lean`  – the property theorems, named `Cnn_...`, each followed by `example`s showing that
  its hypotheses can be met by a concrete non-trivial case.

Suffix `_partial`: only part of the English property holds or is proved; suffix `_refuted`: the English
property is false of the code, and the theorem exhibits a concrete witness.

## Modelling conventions

* Exceptions are values: an operation returns its outcome (`Except`/`Outcome`) together with the state
  that is left behind, so partial effects before a raise are visible.
* Python floats are idealised as exact rationals (`ℚ`). Rounding, NaN, infinities are outside the model,
  except in C121, C122 (the sparse product), C27 (`bytesF`, sizes in doubles), C35, C79 (`LonDouble`, `GlobalDouble`), C118 (`UsageDouble`)
  and the claims built on the product in doubles (C135, C136, C141–C145).
* Python ints are `Int`/`Nat`. Text on which code parses is `List Char`; other text is `String`.
* Dicts are association lists with unique keys, in insertion order.
* SHA-256 (`make_sha`) is idealised as injective: the cache key *is* the canonical JSON text. That the
  canonical JSON text is injective on JSON values is proved, not assumed.
* Wall-clock time is a natural number supplied by the environment.
* File system: total functions from paths to contents; `os.rename`/`os.unlink` are atomic; writing
  a temporary file is a sequence of separately observable steps that a crash may cut anywhere.
* sqlite: a table is a list of rows in rowid order; each statement is atomic; the manager thread runs
  one request at a time (that it does is itself property C66).
* Concurrency: small-step interleaving semantics at the granularity of the lock operations and of the
  unlocked reads that matter.

## Trusted base

* The Lean 4 kernel. Axioms: only `propext`, `Classical.choice`, `Quot.sound` (checked by `vcheck`).
* That the Lean definitions describe the cited python lines (reviewable: each cites its lines).
* Semantics of the python standard library / third party pieces that are modelled, not verified:
  `OrderedDict`, `dict`, `re` (a small backtracking matcher is modelled), `json.dumps(sort_keys=True)`,
  `struct`, `queue.Queue`, `threading.Lock/RLock`, `os.rename`, sqlite statements used, `FileLock`,
  `np.allclose` (|a-b| ≤ atol + rtol·|b|), `np.array_equal`, `scipy.sparse` CSR product.
* Not modelled at all: MIR itself, eccodes/earthkit-data internals, xarray's `apply_ufunc` internals,
  HTTP, yaml text syntax (except the text written for plain values, C150), rounding where it is not listed above, sphinx and
  docutils themselves (the extension modules of the project are modelled: C104, C105, C126, C149, C152).

## Plan per property

### In-memory cache (`MemCache`) – utils/memcache.py
State = ordered items (key,data,size), `max_mem : Option Int`, `curr_mem`, `hits`, `misses`, `strict`, policy.
Operations: `get` (against a source: find_entry / create_from_entry / create, each may raise), `update` with
the three configured values (which may be invalid), `clear`. A run is a fold over a list of operations.

* C01 invariant by induction over operations; also: any successful miss restores the bound from any state.
* C02 invariant by induction over all operations, raising ones included.
* C03 refinement: invariant "each item is what the source gives for its key".
* C04 per-step theorem plus count over the trace.
* C05 ghost clock: last use defined from the trace only; invariant "item list sorted by last use".
* C06, C07 directly on the eviction loop by induction, lifted to operations.
* C08 proved for `largest` (exact condition); refuted for `lru` (an oversized matrix flushes everything first, proved for every state).
* C09–C12 case analysis lifted to reachable states.
* C13 small-step lock semantics, any number of threads; linearization at lock release/unlocked read.
* C14 refuted: key does not contain the inventory; partial: holds while requests with the same key use one inventory (`C14_isolated_partial`);
  `C14_whose` says in general which earlier request the weights come from.
* C123 (`Memory*`) matrices by format and bytes of their arrays; the state inside `get` in which the weights are loaded (`whileLoading`), tied to
  the calls of `get` by `C123_moment`. Temporaries of `load_npz` are not modelled.
* C15 canonical JSON: `Json` component; injectivity proved for the serializer.

### Comparisons of the tests (`Testing`) – utils/testing.py
* C124 each helper characterised exactly (accepted iff …) over all results and references; the two conditions that are not what is meant are
  refuted with families of wrong results.
  `Testing/Plane`: two-dimensional coordinates of numbers, with numpy's broadcasting of rows against a flat array.

### Configuration (`Config`) – utils/config.py
State = root settings, stack of temporary settings, environment, observers, file content, autosave.
* C16, C17, C21, C23, C24: theorems on the step functions lifted over operation lists.
* C18 single name proved; multi-name refuted (`_partial`), `C18_prefix` says exactly which pairs stay set. C19 proved over arbitrary bodies (nested
  program syntax). C20 refuted with an observer that raises; partial for non-raising observers.
* C22 save/load at the level of the yaml mapping (yaml text syntax itself not modelled).
* C116 (`SaveAs`) `config.save_as` at any point of a program (inductive `Point`), then a start with the copy; lock file not modelled.
* C25 refuted (`bool("False")`; every non-empty text is true); exact condition for a flag to count as off in `Config/FlagProps`.
* C77 start-up with an old settings file: every content yaml can read (`MigrateProps`: values in force as they stand, a flag up to python equality, unreadable numbers raise on reading), unreadable files, and files that are ignored because the new one is there; C78 refuted (the file is rewritten in place).
* C102, C103 (`Threads*`) threads and the shared stack: looking up the object, acting on it, making, pushing and popping temporary objects are
  separate steps, any schedule. Without observers, files and changes of the environment.
* C112 (`Boot*`) start-up with files of any content, directories that may be missing, and the umask; refines to the start-up of C22/C77/C101
  (`C112_same_start`). C113 (`Show`) rows of the displays, over all programs.
* Observers are arbitrary functions of the whole history that may raise but do not themselves change the
  configuration. The yaml file is its list of entries; which values `SafeLoader` reads back is a parameter.

### Humanize (`Humanize`) – utils/humanize.py
* C26 regex matcher model against a grammar spec. C27 exact rational rounding; refuted for negatives and for
  huge n; partial for 0 ≤ n < 1024^9. `Double`, `FloatProps`: the same function in IEEE doubles, where it differs and by how much. C28 edit-script optimality. C29 structural.

### Gridspec (`GridSpec`) – gridspec.py
* C30 regexes as matchers; disjointness. C31, C32, C34, C37, C38 case analysis over specs.
* C33 refuted (allclose), partial for the non lat-lon types and exact parts; `C33_latlon_exact` decides when a lat-lon match turns round. C35 loop proved to
  terminate and be the unique representative (exact arithmetic); in doubles (`LonDouble`): rounded once below 2^56 degrees,
  endless from 2^63 on. C36 table computed by the kernel
  (the table is the quantifier's whole range).

* C76 refuted / partial, C79 (computed east-west globality, added after a mutation went unnoticed).
* C131 (`GridSpec/MatchProps`) the gridspec model of C30–C38. The whole matching decision and the whole of acceptance as equivalences with
  inductive relations on the dicts as given (`Matches`, `IsKind`, `AreaOf`, `GoesRound`, `Readable`, `Refusal`).

### Inventory (`Index`) – backends/db.py, tools/subset
* C39–C42 list reasoning over loaded indexes (`Index/Model`). C42 refuted when several entries answer one filter. `Index/SubsetOrder`: the order of the filters decides which entry answers (`C42_exact`).
* C80 weights paths. C43–C45, C81 state machine of MatrixDb + accessor + cached index + remote (`Index/Session`): one
  process and thread, at most one cache entry for the index, each of the two urls up or down, publications, evictions and
  policy changes as environment steps. Download of weights files and the gzip layer are not modelled.
  C81 exactly (`Index/RetryProps`): all states in which a lookup fails on the network, by cases of the two parts of `find_entry`.

* C96 (`Race`) threads that look up entries in one `MatrixDb`, step by step at accesses to the shared `_index`, with or without the lock of
  the in-memory cache; any schedule. The index file is readable and does not change.
* C100, C101 (`Process`): `import`, configuration, the two caches as its observers, programs that change and use them. `run_sim`: a run of the
  process is a run of the `Config` model with some observers, so what is proved there holds here.
* C99 (`Index/Props3`) lookups and the options recorded in entries.
* C132 (`GridSpec/Plain`, `Index/PlainProps`) C131 and the index model put together: comparisons of plain descriptions return, so a lookup is the first
  entry of the file that answers, on the file and the request as given. Refuted for entries whose method cannot be read.
* C133 (`Regrid/PlainProps`) C82, C131, C132 put together: the specification `Outcome` is on the index file, the weights, the values and the request
  as given; the call is all of the model that is left in the statement.
* C135 (`Regrid/PlainDouble`) C133 with C121 and C122: the same for IEEE doubles, each point by the specification `PointD`.
* C136 (`Regrid/FieldsDouble`) C48 with C135: the loop over the fields by induction, the history growing by one regrid per field.
* C97, C98 (`Remote`) the models of gridspecs, in-memory cache, index session and downloads put together: `MatrixDb.find` with `UrlAccessor`,
  the product, over histories of regrids, publications of indexes and weights, evictions, settings, network states and new processes.
  Proved by an invariant: everything in the index, on disk and in memory was published, for the key it is under.
* C107 (`SubsetDisk*`) the subset tool and `copy_matrix_file` on a disk of files by path, every outcome; the result is opened as a local inventory.
  Directories and yaml are not modelled; the command line is C154.

### Regridding (`Regrid`) – data/, backends/, array/
* C46, C47 (`Sparse*`) CSR product over an arbitrary commutative ring / ordered field; arrays as shape plus elements in C order.
* C121, C122 (`Float*`) the same product over machine numbers: NaN, infinities, overflow and any rounding (signs of infinite results too); error analysis by induction over the
  stored weights of a row. `Ieee*`: IEEE doubles are an instance (nearest, ties to even, gradual underflow), with the bounds in figures.
* C48 (`Handlers`, `Props2`) loops of the field list handler over an arbitrary backend whose answers do not depend on its state.
* C49, C50 (`Handlers`, `Props`) decision logic of handlers; memo table of backends, induction over histories of calls.
* C51 refuted for the array path (options dropped), proved for GRIB; dict objects in a heap, so that the caller's dict is visible.
* C82 (`Pipeline`, `PipelineProps`) composition of GridSpec, Json, MemCache, Index and Sparse: the cache key tells usable requests
  apart, so C03, C39 and C46 compose over histories of regrids. Grid values are scalars or flat sequences: a list and a tuple
  nested in a description have one key (C15) but are not equal for python. C83 (`Props3`) the deprecated interface.
* C119 (`Args*`) the keywords of a call from the public functions through the handlers to the signatures of the backends; the outcome is what is
  asked of MIR or of an inventory. Grids are opaque; `area`, `GridSpec.from_dict` and MIR's canonical grid are parameters.
* C130 (`Regrid/ArgsProps3`) the same model. For each function an equivalence between "carried out" and the arguments as given (`MirServes`,
  `WeightsServe`, `OldServes`, `GridFound`, `DimsFound`, stated on the call's own keywords), and for every argument with a documented default the
  equality of the calls with and without it. A call that is not carried out raises: `call` has no third outcome.
* MIR itself and the encoding of fields are parameters; options are the keywords of `MirBackend.regrid`/`regrid_grib`.

### Streams and MIR files (`Mir`) – utils/stream.py, utils/mir.py
* Files are lists of bytes; floats are bit patterns. `Spec` states the layouts without readers or writers: `MirMatrix.file`,
  `Item.layout`, `griddefFile`. What MIR (C++) writes is taken from the comments of mir.py.
* C52 (`StreamProps`) every program of writes and end marks is read back; refuted for doubles and long longs (readers raise). `ReadProps`: what readers return on any bytes.
* C53, C54, C84 (`Props`) readers are composed as `Strict` (raise on every cut input) or `Loose` (may come out short at the end
  of the file); scipy's constructor is modelled by its checks, `full_check=False`. C84 (`ExactProps`): each reader succeeds iff the bytes
  have a layout (`Tagged`, `Block`, `Holds`), so the accepted byte strings are exactly those of a small grammar.
* C55, C56, C85 (`GriddefProps`) names are an injective digest of python's text; numpy prints arrays of more than 1000 elements
  by their edges. C86 decision logic of `mir_make_matrix` with MIR as a parameter.
* C106 (`Objects*`) `next_object`, `read_object`, `write_object`; which methods the wrapped object offers is a parameter.

### Disk cache (`DiskCache`)
* C57, C58, C88, C140 (`Create*`) any number of processes that call `cache_file` for one path, step by step with crashes: directory entries,
  inodes (a lock file that was unlinked stays locked by who has it open), `.tmp` file, row of the table. `Calm`: nothing is removed while
  somebody creates. Not modelled: the size comparison and second path of other entries. C140: an invariant of locks and places,
  and a measure of the steps left to a process; no `Calm`. C59 canonical JSON.
* C60–C65, C87, C115, C118, C137–C139 (`Table*`) table and directory; every operation of the manager thread is a function on (rows, files). `TableSpec` states
  protection, attachment and being inside without the queries. Simplified: loops over a query see the rows of its start; `LIKE` without
  wildcards; amounts to free in hundredths of a byte (percentages); `purge` reads the clock twice; files change only between operations.
  C118 (`Usage`, `TableProps6`): a file uses as many bytes of the disk as its size; the rest of the disk does not change during a check.
  `UsageDouble`: percents and bytes to free in IEEE doubles. C134 (`PurgeDoc`): C63 for the matcher of the documentation, its expression
  evaluated on texts and lists.
* C66 (`Queue*`) callers, condition variable, queue and manager thread, any schedule.
* C69 (`Locks*`) threads run programs of lock operations and requests; which programs the functions run is an inductive predicate
  (branches resolved). Proof: locks are taken in a fixed order, requests take none; a measure bounds the steps left.
* C67, C68, C89–C91 (`Policy*`) policies, their snapshot of the configuration, directories, manager's copy; histories of changes, uses and
  requests for the directory with any configuration (reads may raise), manager failures and file-system refusals. Not modelled: several threads
  (C69).
* C114 (`Life*`) the same histories, with the objects that own temporary directories and whoever keeps them; projects onto `Policy` (`C114_follows`).
  Objects are destroyed at once when nothing refers to them (CPython's reference counts).
* C111 (`WorkProps`) the table of C60–C65 with the lock and temporary files of a creation as files of the directory; invariant over histories of
  requests to the managers and changes of files.
* C110 (`Use*`) calls of `cache_file` of several threads, nested in `create` and `force` functions, over the table of C60–C65; requests to the
  manager in order, the size checks nobody waits for run at any later time. The policy does not change; lock and `.tmp` files are left out.
* C109 (`Switch*`) threads inside `cache_file` while others replace the policy: each use of `CACHE.policy`, request to the manager and access to the
  file system is a step; directories are numbers, a replaced temporary policy takes its directory along. Creation of a file is one step (see C57).
* C70, C92 (`Download*`) `download_and_cache` with multiurl's `Downloader` as a parameter and a log of requests to the server.

### Builder, tools (`Builder`), xarray (`Xarray`)
* C71 (`Builder/Props*`) `make_matrix` on top of the `Index` and `Mir` models: MIR description → plan (digest, path) → conversion → new
  index. The form of the path handed to `mir_cached_matrix_to_file` is a parameter; the code's form is refuted, the intended one proved.
* C117 (`Campaign*`) tools/utils/grid.py, tools/utils/matrix.py and the loop of tools/manage/build_db.py, on top of the builder; MARS and MIR are
  parameters, the shell is assumed not to interpret paths, `download_index` is not modelled (it imports a missing module).
* C125 (`MergeTool*`) `main` of merge_index.py on a disk of directories and files, with the download.
* C72, C93, C94 `merge` of merge_index.py on index files; union, lookups in the union, what is (not) checked.
* C141 (`Xarray/Stored*`) C108 with C135: the loop over the slices with the state of the in-memory cache, a refinement of the loop without it
  (`vectorizeS_eq`), and the values in doubles.
* C142 (`Regrid/StrictProps`) C135 with C09 and C75: the settings of the history need only be valid; the one new outcome is the refusal of strict
  mode, and its conditions are stated on the last configuration and the published size.
* C143 (`Regrid/Threads*`) C13's steps inside calls of regrid, configure and clear by any number of threads. Invariant over all executions: what
  took effect was called; a regrid that ends has the result of its lookup at the point where it took effect, and that is C142's. Progress by the
  steps of the lock holder and the thread itself.
* C144 (`Remote/DoubleProps`) C97's invariant with C132 (which entry), C80 (its path), C135 (the values in doubles) in place of the model's own
  functions; the first use by running the model on the start state.
* C145 (`Remote/Shared*`) one `DiskCache/Create` system per URL, a stage and an in-memory cache per process; invariants over `Step` (what is
  waited for, held, returned), C57 for whole files, C140 for the end, then as C144.
* C146 (`DiskCache/LocksProps2`) on the networks of C69, for all programs: open `with` blocks are nested and owned (no two within one lock); the
  tickets of requests are used once (a call waits for its own).
* C147 (`Json/Dates*`): `default_serialiser`; injectivity of `isoformat` (dates, times, microseconds, offsets) on top of C59; exact conditions of
  the two exceptions.
* C148 (`Testing/Fetch*`): `get_test_data` as a transition system of calls, byte offsets and kills; invariant: what the last opener of a file has
  written is right.
* C149 (`Docs/Output*`): the directive `module-output`; a module is what it prints, what it sets `sys.stdout` to and how it ends; each block of
  the page by cases of `Shows`, the whole documentation by induction over its directives.
* C150 (`Config/SaveText*`): the characters `save_config` prints, and a reader of the part of yaml such a file uses (comments, empty lines,
  `key: value` with plain or single-quoted values; anything else is "not described", never guessed). Induction over the lines of the text
  (`Written`), for the whole text and for every prefix. PyYAML's implicit resolution is the parameter `resolve`.
* C151 (`Json/Load*`): `json.dump` with and without an indentation and `json.load`, character by character (strings with escapes and
  pairs, the number grammar, white space). Recursion is limited by a number; monotone in it, so a text has one meaning. Round trip and cut
  by induction over the value; `repr(float(text))` is the parameter `fl`.
* C152 (`Docs/Xref*`): the `xref` role with sphinx's `caption_ref_re`, the table of docs/conf.py and the texts of the roles in docs/ (read
  from the pages). Direct proof by splitting the text at its last `<`.
* C153 (`Config/Html*`): the text of `_repr_html_` with its style sheet, and a machine that reads pages character by character as the
  specification. Induction over the rows; splitting of the printed lines at commas.
* C154 (`Index/SubsetCmd*`): `main` of the subset tool with `argparse` for its options. Induction over the arguments; the abbreviations are a
  finite table.
* C155 (`Builder/MergeCmd*`): `main` of the merging tool with `argparse` for its options, in the same way as C154.
* C156 (`Regrid/Replaced*`): `regrid` and `interpolate` from the routing on; the two interfaces compared keyword by keyword on the model of C119 and C130.
* C157 (`Config/Book`): refinement of the configuration by a stack of pages, by induction over programs; C158 (`Config/Book`, `Regrid/Replaced*`): the examples of two pages of the guide as programs, with any option and values.
* C159 (`GridSpec/PageProps`): the guide's page of gridspecs as an inductive description of what may be written for which grid; acceptance and the decision of every comparison from C131.
* C160 (`Builder/UidProps`): the uid by cases on the method; same uid exactly if same interpolation.
* C161 (`Remote/RepeatProps`, `Remote/RepeatProps2`): number of downloads after a sequence of calls with the cache policy off, by induction over the calls; in general it is the number of calls whose answer is not in memory when they are made.
* C162 (`DiskCache/MethodsProps`): `_call_manager` on top of `DiskCache/Policy`; invariant that the manager has the directory of the active policy, over all histories.
* C163 (`GridSpec/ColumnsProps`): number of meridians from limits and increment (spec), against `LLGridSpec.__eq__`; also the strip that refutes C79.
* C164 (`DiskCache/LimitProps`, `DiskCache/LimitProps2`): `cache_file` over the functions of `DiskCache/Table`, sequences of requests, limits (of size and of use of the disk) and purges (also with a matcher) from an empty cache; invariant: records and files agree.
* C165 (`GridSpec/PointsProps`): number of parallels likewise, and of points; with C163 and C76.
* C166 (`Builder/MemoryProps`): invariant of builds that return: index keys distinct, files in place, memory recorded that of the file.
* C167 (`Regrid/OrderProps`): rounding to the nearest is monotone (from `ieee_nearest`), so sums of products with weights that are not negative are; range with C122.
* C168 (`Builder/RoomProps`): the memory cache of C123 with the world the builder leaves (C166) as its source; the search is any function from requests to entries.
* C169 (`DiskCache/KillProps*`): the cache of C164; `killed` is `cache_file` up to and including `os.rename`, `start` the check a program makes when its cache is first used. Histories of programs, with kills at any downloads: invariant `Rec` (every file has a row, with its size or none), which housekeeping turns into the invariant of C164.
* C170 (`Index/SubsetRaw`): the loop of `subset` with `raw=True`, proved to run alongside that of C42; then `C42_reloads`.
* C171 (`Index/RawIndex`, `Index/RawIndexProps`): `find` and `to_raw` on the entries of C170; the reflected comparison of a dict with a gridspec, the parts added by the classes of gridspecs being a parameter.
* C172 (`Regrid/Builtins`): the scan of the directory of backends; what importing a module gives is a parameter.
* C108, C95 (`Xarray/Weights*`) the xarray handler put together with the array handler, the precomputed backend and the sparse product; the lookup
  of weights is a function (one inventory that does not change).
* C73, C74, C95 (`Xarray/Props*`) the xarray handler; MIR's `Grid` and the interpolation of one slice are parameters, xarray is named
  dimensions with sizes, `apply_ufunc(vectorize=True)` and assignment of coordinates. C73 refuted in general, proved for meshes and for
  rows whose first two points agree (up to numpy's tolerance). C74 proved for returned arrays, plus when arrays are returned. Not
  modelled: dask, attributes, coordinates of other dimensions, NaN.
* C120 (`Xarray/Dtype*`) the type of the data: numpy's `vectorize` stores results in arrays of the input's type. Kinds only (float, int, bool);
  no overflow, floats exact. C108 is the case of floats.

* C128 (`Builder/Opened`) the pieces joined: a build (C117), its directories linked and its index copied by tools/manage/test_db.py (C129), the directory
  opened as an inventory and used by the pipeline of C82. The specification gives the weights directly from MIR's matrix (`mirWeight`); a
  weight is what its bit pattern stands for, an arbitrary map of patterns to a commutative ring. By composing C117, C40, C46, C82.
* C129 test_db.py: links and index of the test directory, names that clash, a second run. Symbolic links are followed; the tests themselves are not run.

### Temporary files (`Temporary`) – utils/temporary.py

* C127 `TmpFile` and `temp_file` on a directory of numbered files, histories of what objects and others do. Invariant: paths of objects are distinct and
  hold the files they made. Not modelled: permissions.

### Documentation pages (`Docs`) – sphinxext/generate_inventory_rst.py

* C104 (`Inventory*`) the whole path index → list of sections → page as values: filing under the digest of the description, sorting, `match` of the
  page's kind, splitting the targets into columns. The digest (sha256 of json) is an arbitrary function, assumed to tell the descriptions apart.
  The listing is compared with a specification that does not use the sections (`OnPage`, `InOrder`). Simplified: the rst text is a list of cells.
  Simplified: a grid of numbers with first step exactly 1000 is ordered before names (python raises TypeError).
* C126 (`ConfigTable*`) generate_config_rst.py and generate_config_env_rst.py over the table of options of `Config`: `tidy` with the calls python allows
  as a number, `str.replace` on lists of characters, selection and order of rows. Not modelled: descriptions, `repr`, regular expressions that are
  not plain text (the pages give plain names).
* C105 (`UsableProps`) composes the pages with the gridspec parser and the lookup of the `Index` model.

## Findings: where the code does not do what the property says

Each one is a theorem `Cnn_..._refuted` with a concrete witness; the part that holds is `Cnn_..._partial`.

* C08 policy `lru`: an arriving matrix larger than the limit flushes everything; sizes equal to the limit are refused.
* C14 the in-memory key does not contain the inventory: two local inventories share weights.
* C59 cache paths of bare-number arguments collide (hashed texts are concatenated without separator).
* C147 `default_serialiser` imports pandas, which is not a dependency: without it no request may hold a date; a date shares the file of its text.
* C148 `get_test_data` writes in place: a half file left by a killed or a concurrent call is returned as test data.
* C149 the handler of `module-output` uses names that are not bound when the directive has only empty lines: `UnboundLocalError` instead of a message.
* C150 a configuration file that was cut (crash, full disk) can read as a value nobody saved: a size of 4096 as 409, a directory as `/`.
  Files up to the size of python's write buffer are written at once, so a concurrent reader sees the empty file (C78) rather than a cut one.
* C151 an index whose writing was interrupted is refused by every reader (an uncaught `JSONDecodeError`), and the old one is gone: the file
  is opened for writing before anything is encoded.
* C152 `` :xref:`<earthkit>` `` ends the build with `KeyError: 'earthkit>'` although the target is known.
* C153 the html display does not escape values: a cache directory `/a<b>` is shown as `/a`, and markup in a value or in a variable of the
  environment becomes part of the page.
* C154 `--out-dir -out` is refused by the subset tool (argparse), `--out-dir=-out` is not; and the command line is not strict by default
  although `subset_remote_db` is.
* C155 the same for `--input-dir` and `--output-dir` of the merging tool.
* C156 the "new code" of docs/release_notes/deprecations.rst gives arrays to the top-level `regrid`, which raises ValueError for every array (`array.regrid` is what works); docs/guide/interpolate/interpolate.rst promises ValueError for `in_grid` with a field list, but the grid given silently replaces those of the fields; the backend "precomputed-local" of the release notes of 0.6 and of docs/guide/misc/local/regrid.rst does not exist.
* C158 docs/guide/misc/memory_cache.rst sets `weights-memory-cache-policy` to "user", which raises ValueError, and its example gives arrays to the top-level `regrid` (ValueError) without the backend "precomputed".
* C159 the page on gridspecs gives the ORCA subtypes as T, U, V and W; the pattern in the code accepts F, T, U and V, so `eORCA025_W` is refused with ValueError.
* C160 grid-box-average with its default options has its name as uid whatever other keys the interpolation has, so variants of it are not told apart.
* C161 the guide says that with the cache policy off all repeated calls download the matrix again; the in-memory cache, on by default, answers repeated calls without any download.
* C79, C163 `is_global_ew` is true for an area whose west and east are the same longitude: a strip on one meridian, e.g. `[90, 0, -90, 0]`, matches the global grid, and so do
  the weights looked up for it. Fine global grids with different numbers of meridians (36000 and 36001) match, because increments are compared to 1e-6.
* C164 A download that fails leaves a row with size NULL. `_latest_date` takes its creation date from then on, so files registered later are never deleted: the cache grows
  above maximum-cache-size without bound, until that path is got or the cache is purged.
* C165 Likewise grids of 18001 and 18002 parallels from pole to pole match.
* C166 A build that raises after the conversion (description without `nnz`) has replaced the matrix of an entry built before; its recorded memory stays.
* C167 In doubles results may leave the range of the values by rounding: constant fields need not stay constant.
* C168 Outside strict mode weights larger than the limit are loaded, with nothing evicted before.
* C169 A file made by a program that was killed before it recorded the size does not count towards maximum-cache-size: the check compares the recorded sizes first and looks at the directory only if they are above the limit. Such files add up without bound. When the directory is looked at, the amount to free was computed without the file.
* C124 `compare_coord` cannot compare two-dimensional coordinates: it compares the coordinate with its own flattened values, which numpy refuses to broadcast (ValueError); a column is compared crosswise with itself.
* C171 The index returned by `subset(raw=True)` cannot be used as one: `to_raw` raises KeyError, and `find` never gives an entry that leaves out a scanning key (it raises KeyError or finds nothing).
* C172 A module of a backend that exits when it is imported (`SystemExit` is no `Exception`) takes all backends away; minor.
* C35 `normalise_lon` never ends for longitudes of 2^63 degrees and more (adding a turn changes nothing).
* C27 `bytes`-style display of negative sizes has a double sign; 1024^9 and above raise (in doubles: from 2^90 - 2^36);
  from 1 PiB on the nearest tenth can be missed (`C27_doubles_refuted`).
* C33, C76 gridspec equality is not an equivalence (tolerance); C34 ORCA spelling; C35 seam of longitudes.
* C18 `set` of several options is not atomic. C19/C20 an observer that raises on entry of `temporary` leaves the
  temporary configuration on the stack, e.g. `temporary(maximum_weights_memory_cache_size=0)`.
* C116 `save_as(pathlib.Path(...))` saves nothing: `path + ".lock"` raises, which is only logged. Values in force from the environment are not saved.
* C22 a value the SafeLoader refuses loses the whole configuration at next start. C25 `set("x", "False")` turns a flag on.
* C42 a subset written from filters that several entries match may answer with another of them.
* C81 when the checksum says the cached index is old and the download of the new one fails, the cached copy is gone and the
  session never checks again: lookups say "not found" until the process is restarted.
* C96 with memory cache policy `off` lookups run unlocked and `_load_index` publishes an empty index before filling it: another thread
  reports missing weights or raises `dictionary changed size during iteration`; also later, whenever some thread asks for missing weights.
* C107 the subset tool imports `earthkit.regrid.db`, which does not exist (`download_index_file` of tools/utils/matrix.py too); without `--strict`
  it replaces the index of an inventory in the directory, whose entries are lost; filters do not know the aliases of methods (`nn`); names in the
  index are not checked, so a file can be written outside of the directory.
* C106 `next_object` uses `recv`, which files do not have; it does not skip the end mark of the previous object, so a second object raises
  RuntimeError; the test for the end of the stream compares bytes with `""` and never succeeds.
* C104 the two HEALPix pages are empty for every index: the page asks for the attribute `ordering`, which
  no gridspec object has (`HealpixGridSpec` has `order`); entries whose method is a dict of type linear are not listed; a HEALPix target without an ordering makes the page raise
  ValueError; the section key is `json.dumps` without sorted keys, so two descriptions with another order of keys give two sections of one title.
* C105 a source with a sub-area is shown as its grid only, and a nested grid spelled "h8" without its ordering: copied into a call, nothing is found.
* C103 one stack of temporary configurations for all threads: a thread that leaves its block removes the configuration entered last, which may
  be another thread's; a permanent `config.set` made while another thread is in a block is lost when that block ends.
* C101 `config.set` saves before the observers run: a size of None (documented) or 0 for the in-memory cache is refused by it but stays in the
  file, and `import earthkit.regrid` raises in every later process, because the in-memory cache reads the configuration at import.
* C100 a dict refused half way has changed what `config.get` reports; the caches are not told.
* C99 entries are matched by the name of the method: weights built with other options of the method (recorded with a `_uid` that nothing reads) answer
  requests for the plain method when they come first.
* C98 weights republished under the same path are never fetched again with default settings (`check-out-of-date-urls` off), in memory or from disk,
  although the index is checked against its checksum.
* C119 `inventory=` is accepted and ignored by the MIR backend, which is the default: `regrid(data, grid, inventory=path)` does not use the
  inventory. An empty field list takes any keyword.
* C51 `MirBackend.regrid` (arrays) calls `adjust_options(out_grid, {})`: `nearest_method`, `distance`, ... never reach MIR.
* C52 `read_double` and `read_long_long` always raise; 64-bit writers take 32-bit numbers only. A string cut by the end of the stream is returned as if whole. C84 columns are not checked.
* C56 numpy coordinates share a griddef file when they agree in eight digits after the point, and those of more than 1000 points when their first and last three elements agree: the job
  silently uses the points of the other grid. C85 a griddef file left unfinished by an exception or a crash is used from then on.
* C86 `mir_make_matrix(output=None)` raises TypeError; `output="x.npz"` as a string raises AttributeError after the job and leaves
  `x.npz.mat`, as does the command line of mir.py.
* C57 the lock file of a cache file is unlinked after release: with a forced regeneration or an eviction two processes can hold "the"
  lock, write the same `.tmp` file and publish a mixture. C58 a crash between rename and table update leaves a row without size.
* C66 the manager thread catches `Exception` only: `sys.exit()` in a purge matcher ends it and all later calls wait for ever.
* C69 a purge matcher that calls the cache deadlocks (it runs in the manager thread while its caller holds the manager lock).
* C68 `temporary-directory-root` is ignored (not in `CACHE_KEYS`), and if set every configuration change discards the temporary directory of
  policy `off` (C90). C89 policy `temporary` creates the cache directory of the user, and fails when it cannot.
* C114 when the new policy cannot be made (root directory refused) the old temporary directory has been removed already, with all its files.
* C111 a file that was lost (removed by hand) keeps a record with a size: while it is made again a check can remove the record and, if the download
  takes more than two minutes, the lock file; the new file is then not recorded. `purge()` does the same to every download. A check between the
  renaming and the recording of a file can remove it: `cache_file` raises FileNotFoundError.
* C110 `cache_file` returns before the size check it asked for has run, and only the newest record is spared: the index of a remote inventory is
  made by a nested download with a newer record, so with a limit below the size of index and packed index (or a full disk with
  `maximum-cache-disk-usage`) it can be deleted before it is opened; so can weights whose first download failed, and weights another thread is about to open.
* C109 `cache_file` reads the policy again at every use: a change of the cache directory in another thread makes it raise AssertionError (`File not in
  cache`), also after the file was downloaded; a change to `off` makes it raise TypeError; a change from `off` leaves a file of random name in the user's cache.
* C91 if reading an option raises half way through `update` (environment variable with a wrong value) the manager is not told of the
  limits that were taken over before, until another option of the cache changes (`C91_exact`).
* C70 `download_and_cache` returns None for local files; `check-out-of-date-urls: 0` in the file is not off (`is False`); a URL without
  extension asks the server even when the file is cached. C92 a forced re-download deletes the old copy before fetching the new one.
* C60 `check_size` first adopts stray files as entries created now, so the most recent download is no longer the most recent entry and
  may be deleted at once. C61 the amount to free is computed before sizes of unfinished entries are recorded
  (the excess is at most those sizes, `C61_overshoot`; a second call frees it, `C61_again`).
* C62 a file adopted as an orphan stays one when it is asked for, and is then trimmed before entries that were used less recently.
* C63 `purge()` frees as many bytes as the cache has: with empty files only, it deletes nothing; otherwise it stops after the last entry with bytes, and empty ones used later stay (`DiskCache/PurgeProps`).
* C118 `DiskUsage.percent` is rounded to whole percents: a disk may stay up to half a percent above `maximum-cache-disk-usage`. A file system
  reporting no blocks makes every `check_size` with that limit raise ZeroDivisionError. In doubles 28.5 percents round to 28.
* C134 the example `cache.purge(matcher=lambda e: ["owner"] == "test_cache")` (caching.py:911) compares a list with a text and deletes nothing.
* C115 a cached file removed by hand (or by a cleaner of `/tmp`) stays in the table with its size: it counts in `size()`, and existing files are
  trimmed although together they are below `maximum-cache-size`. Only trimming the record itself corrects this.
* C137 housekeeping looks for the entry a file belongs to by the text before the first dot of the whole path: in a directory such as
  `/tmp/earthkit-regrid-first.last` every old file whose name begins with that of an entry is deleted with it, helper or not.
* C65 being inside the cache directory is a test on text: `/cx/f` and `/c/../f` pass for `/c`.
* C87 `summary_dump_database` raises TypeError while an entry is being created (`size += None`).
* C112 a configuration file with a key that is not text (a number, `yes`, a date) makes `import earthkit.regrid` raise TypeError. With
  `EARTHKIT_REGRID_CONFIG_FILE` a bare file name, `os.makedirs("")` raises between the two calls of `os.umask`: the process keeps umask 077, and
  no file is made. Files of older releases are rewritten without the entries that are no options. When the new file cannot be written, the
  settings of the older release are not used.
* C113 `dump()` shows stored values even where environment variables decide; `print(config)` shows None and the text "None" alike.
* C78 a process that starts while another one saves can read a half-written file.
* C71 `builder.make_matrix` hands a str to `mir_cached_matrix_to_file`, which reads `.suffix` of it: AttributeError on every call. The
  digest that names a matrix is taken before the caller's `global_input`/`global_output` flags are added: builds that differ only in
  these flags replace one another.
* C117 tools/utils/matrix.py never compares a description file it finds with the request: after an update of MIR, or for grids whose labels
  coincide (`5/5` and `5x5`, `a-b` from `c` and `a` from `b-c`), the old or the other description is built in.
* C93 `merge_index` counts entries only after it has overwritten the result file, and not at all in a dry run. C94 it never compares
  versions.
* C73 `_distinct_lats` tests that the steps along a row are equal, not that they are zero: sheared grids get 1-D coordinates that are
  wrong for all points but the first of each row; grids of one row or column get none (IndexError, printed and ignored).
* C123 `matrix_memory_size` counts formats other than CSR, CSC, BSR as 0 bytes, and an entry without `memory` as 0 bytes: the limit then bounds nothing.
* C124 `compare_coord` compares numbers with themselves (line 137: `vals` instead of `ref_vals`); `compare_global_ll_results` compares the last row
  with `v_ref[0]` and `rtol=10` for nearest neighbour. The xarray tests compare sizes only.
* C132 one entry of supported grids without a readable method spoils the inventory: it is kept when the index is loaded, and lookups that come to it raise.
* C129 a second run of tools/manage/test_db.py takes what a failed first run left as a complete inventory.
* C127 a `TmpFile` whose file was removed keeps the path: it raises at each cleanup and removes what others put there.
* C126 the table of options is wrong when built by a user called `regrid` (or `r`, `re`, …), and not made without a home directory.
* C125 `merge_index --dry-run` makes the output directory and in mode `system` downloads into it.
* C121 stored zero weights let missing values through (0 · NaN): points that do not use a missing value become missing.
* C120 `output_dtypes=[da.dtype]`: integer data in xarray is interpolated and then truncated towards zero, without a warning; the same values in a
  numpy array give floats.
* C74 on 2-D targets without 1-D coordinates the data has dimensions latitude, longitude but the coordinates y, x: a DataArray raises
  always, a Dataset gets coordinates along dimensions of their own. Own `out_dims` raise for a DataArray.
* C95 the argument `grid_spec` is ignored when the data has an attribute `gridspec`, and is then passed on as an interpolation option;
  with precomputed weights every such call raises.

Seen while reading, not stated as properties: with policy "off" every failed lookup downloads the whole index again;
a failed load leaves an empty index in memory; keyword `set` notifies twice; environment values and values from the file
are not validated; `_init_config` says "reverting to defaults" on a missing version but keeps the loaded values; the lock
file is unlinked after release; regular expressions of gridspec types match prefixes only; `normalise_lon` does not
terminate for huge floats (C35 in doubles).
