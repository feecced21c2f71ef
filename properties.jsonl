{"id": "C01", "title": "In-memory weights cache stays under its limit", "statement": "With weights-memory-cache-policy 'largest' or 'lru' and a positive maximum-weights-memory-cache-size, after every operation memory_cache_info().currsize is below maxsize, whatever was requested before.", "quantifier": "every finite history of regrid lookups (hits, misses, failing loads), clear_memory_cache calls and config changes (each with a valid policy name and, for limited policies, a positive limit), starting from the freshly constructed cache", "why_tests_cant": "the bound depends on the whole history of sizes, estimates, policy and limit changes", "anchors": ["src/earthkit/regrid/utils/memcache.py:MemoryCache.get", "src/earthkit/regrid/utils/memcache.py:MemoryCache.update", "src/earthkit/regrid/utils/memcache.py:LRUPolicy.reduce", "src/earthkit/regrid/utils/memcache.py:LargestPolicy.reduce"]}
{"id": "C02", "title": "In-memory cache accounting is exact", "statement": "memory_cache_info().currsize always equals the sum of the sizes of the matrices held and count equals the number of distinct requests held; no request is held twice.", "quantifier": "every finite history of lookups, clears and config changes, including the operations that raise", "why_tests_cant": "incremental += / -= bookkeeping can drift only after particular sequences", "anchors": ["src/earthkit/regrid/utils/memcache.py:MemoryCache._reduce", "src/earthkit/regrid/utils/memcache.py:MemoryCache._curr_mem", "src/earthkit/regrid/utils/memcache.py:MemoryCache.info"]}
{"id": "C03", "title": "In-memory cache is transparent", "statement": "For an inventory that does not change, a lookup through the cache returns exactly the weights and shape that an uncached lookup of the same request returns, or raises; it never returns the weights of another request.", "quantifier": "every history of operations under every policy, every request", "why_tests_cant": "a stale or crossed entry shows only after particular histories", "anchors": ["src/earthkit/regrid/utils/memcache.py:MemoryCache.get", "src/earthkit/regrid/backends/db.py:MatrixDb.find"]}
{"id": "C04", "title": "Hit and miss counters tell the truth", "statement": "Since the last clear, hits+misses counts exactly the successful lookups made while caching was on; a lookup of a held request is a hit and does not load, a lookup of a request that is not held is a miss and loads exactly once.", "quantifier": "every history; for the sum of the counters, every history of valid configurations (an unusable limit raises after the miss was counted)", "why_tests_cant": "counts depend on eviction history", "anchors": ["src/earthkit/regrid/utils/memcache.py:MemoryCache.get", "src/earthkit/regrid/utils/memcache.py:MemoryCache.info"]}
{"id": "C05", "title": "lru evicts least recently used first", "statement": "Under policy 'lru', whenever an operation evicts one matrix and keeps another, the evicted one was last used earlier than the kept one.", "quantifier": "every history of lookups and every evicting operation after it", "why_tests_cant": "recency order is a property of the whole access history", "anchors": ["src/earthkit/regrid/utils/memcache.py:LRUPolicy.reduce", "src/earthkit/regrid/utils/memcache.py:MemoryCache.get"]}
{"id": "C06", "title": "largest evicts the largest first", "statement": "Under policy 'largest', whenever an operation evicts one matrix and keeps another, the evicted one is at least as large as the kept one.", "quantifier": "every history and every evicting operation", "why_tests_cant": "depends on arbitrary size multisets", "anchors": ["src/earthkit/regrid/utils/memcache.py:LargestPolicy.reduce"]}
{"id": "C07", "title": "Eviction is not gratuitous", "statement": "An operation evicts only when the space is needed and stops as soon as the target is met: putting back the last evicted matrix would reach the target again; a matrix known to be larger than the whole cache causes no eviction before it is loaded.", "quantifier": "every cache content, every target size", "why_tests_cant": "requires all combinations of sizes", "anchors": ["src/earthkit/regrid/utils/memcache.py:LRUPolicy.reduce", "src/earthkit/regrid/utils/memcache.py:LargestPolicy.reduce", "src/earthkit/regrid/utils/memcache.py:MemoryCache._create_with_pre_check"]}
{"id": "C08", "title": "Weights that cannot fit do not disturb the cache", "statement": "With strict mode off, loading weights whose size reaches the limit returns them, does not keep them, and leaves the matrices already held in place.", "quantifier": "every reachable cache state, every oversized matrix", "why_tests_cant": "depends on contents and policy", "anchors": ["src/earthkit/regrid/utils/memcache.py:MemoryCache.get", "src/earthkit/regrid/utils/memcache.py:LRUPolicy.reduce"]}
{"id": "C09", "title": "Strict mode refuses weights that cannot fit", "statement": "With strict mode on and a limited policy, a missing request whose estimated size exceeds the limit raises ValueError without loading anything and without changing counters or contents; one whose estimate fits is never refused.", "quantifier": "every reachable cache state, every request", "why_tests_cant": "depends on contents at the time of the call", "anchors": ["src/earthkit/regrid/utils/memcache.py:MemoryCache._create_with_pre_check"]}
{"id": "C10", "title": "Policy off keeps nothing", "statement": "Under policy 'off' every lookup loads afresh, nothing is held, and count, currsize, hits and misses stay 0.", "quantifier": "every history that reaches policy off, every later history while it stays off", "why_tests_cant": "switching policies mid-history must drop everything", "anchors": ["src/earthkit/regrid/utils/memcache.py:NoPolicy", "src/earthkit/regrid/utils/memcache.py:MemoryCache.update"]}
{"id": "C11", "title": "Policy unlimited never evicts", "statement": "Under policy 'unlimited' no lookup removes a held matrix, so each distinct request is loaded at most once until a clear or a policy change.", "quantifier": "every history under unlimited", "why_tests_cant": "needs all histories", "anchors": ["src/earthkit/regrid/utils/memcache.py:UnlimitedPolicy.reduce"]}
{"id": "C12", "title": "clear_memory_cache empties the cache", "statement": "After clear_memory_cache(), info reports hits=misses=currsize=count=0 with limit and policy unchanged, and the next lookup of any request is a miss.", "quantifier": "every reachable state", "why_tests_cant": "all states", "anchors": ["src/earthkit/regrid/utils/memcache.py:MemoryCache.clear", "src/earthkit/regrid/utils/memcache.py:MemoryCache._clear"]}
{"id": "C13", "title": "Concurrent lookups are linearizable", "statement": "When several threads look up, clear and reconfigure concurrently, the results and final state are those of some sequential order of the same operations in which each operation takes effect between its call and return; a held request is never loaded twice.", "quantifier": "every number of threads and every interleaving at lock granularity", "why_tests_cant": "schedules cannot be enumerated by tests", "anchors": ["src/earthkit/regrid/utils/memcache.py:MemoryCache.get", "src/earthkit/regrid/utils/memcache.py:MemoryCache.update", "src/earthkit/regrid/utils/memcache.py:MemoryCache.clear"]}
{"id": "C14", "title": "Inventories do not share weights", "statement": "A lookup with inventory X returns weights of X, regardless of lookups made before with other inventories.", "quantifier": "every history of lookups over several inventories", "why_tests_cant": "tests use a single inventory; the cache key omits the inventory", "anchors": ["src/earthkit/regrid/backends/db.py:MatrixDb.find", "src/earthkit/regrid/utils/memcache.py:MEMORY_CACHE", "src/earthkit/regrid/utils/hash.py:make_sha"]}
{"id": "C15", "title": "Requests share cached weights exactly when they are the same request", "statement": "Two requests use the same in-memory cache slot iff their normalised input gridspec, output gridspec and interpolation method are equal as JSON values (dict key order and list/tuple spelling do not matter).", "quantifier": "every pair of JSON-like gridspecs and methods", "why_tests_cant": "injectivity over an infinite domain", "anchors": ["src/earthkit/regrid/utils/hash.py:make_sha", "src/earthkit/regrid/utils/memcache.py:MemoryCache.get"]}
{"id": "C16", "title": "config.set then config.get", "statement": "After a successful config.set(name, v), config.get(name) returns v converted by the option's rule, and every other option still returns what it did.", "quantifier": "every option, every value, every prior configuration, no environment variable for the option", "why_tests_cant": "all values and prior states", "anchors": ["src/earthkit/regrid/utils/config.py:Config.set", "src/earthkit/regrid/utils/config.py:Config.get", "src/earthkit/regrid/utils/config.py:Config._set"]}
{"id": "C17", "title": "Environment variables win", "statement": "While EARTHKIT_REGRID_<NAME> is set, config.get(name) returns the conversion of that text whatever was or is set, reset or made temporary; removing the variable brings back the configured value.", "quantifier": "every option, every environment, every history of config operations", "why_tests_cant": "history and environment are unbounded", "anchors": ["src/earthkit/regrid/utils/config.py:Config._env", "src/earthkit/regrid/utils/config.py:env_var_name", "src/earthkit/regrid/utils/config.py:Config.get"]}
{"id": "C18", "title": "A rejected set changes nothing", "statement": "If config.set raises because of an unknown name or an invalid value, the configuration in memory and on file is as before.", "quantifier": "every configuration, every argument list (single name, dict, keywords)", "why_tests_cant": "multi-option updates apply one by one", "anchors": ["src/earthkit/regrid/utils/config.py:Config.set", "src/earthkit/regrid/utils/config.py:Config._set"]}
{"id": "C19", "title": "Temporary configuration is undone on exit", "statement": "On leaving `with config.temporary(...)` normally or by exception, every option has the value it had on entry, whatever was set, reset or nested inside, and the user's config file was not written.", "quantifier": "every sequence of operations in the body, any nesting depth", "why_tests_cant": "nesting and bodies are unbounded", "anchors": ["src/earthkit/regrid/utils/config.py:Config.temporary", "src/earthkit/regrid/utils/config.py:new_config", "src/earthkit/regrid/utils/config.py:forward"]}
{"id": "C20", "title": "A failing temporary leaves no trace", "statement": "If entering `with config.temporary(...)` raises, the configuration is the one from before the statement.", "quantifier": "every configuration, every temporary argument, every registered observer", "why_tests_cant": "depends on what observers reject", "anchors": ["src/earthkit/regrid/utils/config.py:new_config", "src/earthkit/regrid/utils/memcache.py:MemoryCache.update"]}
{"id": "C21", "title": "config.reset restores defaults", "statement": "config.reset(name) makes the option default and leaves others alone; config.reset() makes all options default; unknown names raise KeyError and change nothing.", "quantifier": "every configuration and name", "why_tests_cant": "all states", "anchors": ["src/earthkit/regrid/utils/config.py:Config.reset"]}
{"id": "C22", "title": "Saved configuration reloads", "statement": "Saving the configuration to the yaml file and starting again with that file gives the same value for every option.", "quantifier": "every configuration reachable by set/reset", "why_tests_cant": "only non-default values are written, so all value/default pairs matter", "anchors": ["src/earthkit/regrid/utils/config.py:save_config", "src/earthkit/regrid/utils/config.py:ConfigOption.save", "src/earthkit/regrid/utils/config.py:_init_config"]}
{"id": "C23", "title": "Observers see every change", "statement": "After every successful set, reset, temporary entry and exit, every registered observer has been called after the new configuration became visible.", "quantifier": "every number of observers, every history", "why_tests_cant": "ordering over histories", "anchors": ["src/earthkit/regrid/utils/config.py:Config._notify", "src/earthkit/regrid/utils/config.py:Config._changed", "src/earthkit/regrid/utils/config.py:new_config"]}
{"id": "C24", "title": "Only valid policies can be configured", "statement": "Starting from a configuration with valid policies, no sequence of config.set/reset/temporary makes cache-policy or weights-memory-cache-policy return a value outside its documented list (without environment variables).", "quantifier": "every sequence of config operations", "why_tests_cant": "invariant over histories", "anchors": ["src/earthkit/regrid/utils/config.py:ConfigOption.validate", "src/earthkit/regrid/utils/config.py:ValuesValidator"]}
{"id": "C25", "title": "Boolean options accept their textual form", "statement": "Setting a boolean option (by config.set or environment variable) to the text 'False' turns it off.", "quantifier": "every boolean option", "why_tests_cant": "tests only use real booleans", "anchors": ["src/earthkit/regrid/utils/config.py:Config._set", "src/earthkit/regrid/utils/config.py:Config.get", "src/earthkit/regrid/utils/download.py:out_of_date"]}
{"id": "C26", "title": "Sizes and durations parse by their grammar", "statement": "as_bytes/as_seconds/as_percent accept exactly optional-space digits optional-space unit-word optional-space, and return the number times the factor of the unit word's first letter (K,M,G,T,P powers of 1024 in either case; s,m,h,d,w; %); a bare number is itself; anything else raises ValueError; None gives None where allowed.", "quantifier": "every text", "why_tests_cant": "infinite set of strings", "anchors": ["src/earthkit/regrid/utils/humanize.py:as_number", "src/earthkit/regrid/utils/humanize.py:as_bytes", "src/earthkit/regrid/utils/humanize.py:as_seconds", "src/earthkit/regrid/utils/humanize.py:as_percent"]}
{"id": "C27", "title": "humanize.bytes is accurate", "statement": "bytes(n) names the unit 1024^i with n/1024^i in [1,1024) (i=0 below 1024) and shows that ratio rounded to one decimal (error at most 0.05 units); sign is correct; no size raises.", "quantifier": "every integer n", "why_tests_cant": "all magnitudes", "anchors": ["src/earthkit/regrid/utils/humanize.py:bytes"]}
{"id": "C28", "title": "string_distance is the edit distance", "statement": "string_distance(s,t) is the least number of single-character insertions, deletions and substitutions turning s into t; did_you_mean returns a vocabulary word at least distance.", "quantifier": "every pair of strings, every non-empty vocabulary", "why_tests_cant": "minimality over all edit scripts", "anchors": ["src/earthkit/regrid/utils/humanize.py:string_distance", "src/earthkit/regrid/utils/humanize.py:did_you_mean"]}
{"id": "C29", "title": "list_to_human lists every element in order", "statement": "list_to_human joins with ', ' and the conjunction before the last element; '??' for an empty list.", "quantifier": "every list, every conjunction", "why_tests_cant": "all lengths", "anchors": ["src/earthkit/regrid/utils/humanize.py:list_to_human"]}
{"id": "C30", "title": "Grid type inference is unambiguous", "statement": "Without an explicit type, a gridspec is accepted iff its grid is a two-element list/tuple, or text starting like [OoNn]digits or [Hh]digits, or exactly e?ORCAdigits_[FTUV]; at most one type applies so the order in which types are tried does not matter; otherwise ValueError.", "quantifier": "every grid value", "why_tests_cant": "infinite set of strings and values", "anchors": ["src/earthkit/regrid/gridspec.py:GridSpec._infer_spec_type", "src/earthkit/regrid/gridspec.py:GRIDSPEC_TYPES", "src/earthkit/regrid/gridspec.py:type_match"]}
{"id": "C31", "title": "Gridspec normalisation is idempotent and non-destructive", "statement": "Normalising a gridspec twice equals normalising it once; the caller's dict is not modified; tuple and list spellings normalise alike.", "quantifier": "every dict accepted", "why_tests_cant": "all dicts", "anchors": ["src/earthkit/regrid/gridspec.py:GridSpec.from_dict", "src/earthkit/regrid/gridspec.py:GridSpec._normalise", "src/earthkit/regrid/gridspec.py:LLGridSpec.__init__", "src/earthkit/regrid/gridspec.py:HealpixGridSpec.__init__"]}
{"id": "C32", "title": "A grid matches itself", "statement": "Every gridspec with well-formed grid and area matches itself.", "quantifier": "every well-formed gridspec of every type", "why_tests_cant": "all grids", "anchors": ["src/earthkit/regrid/gridspec.py:GridSpec.__eq__"]}
{"id": "C33", "title": "Grid matching is symmetric", "statement": "If grid a matches grid b then b matches a.", "quantifier": "every pair of gridspecs", "why_tests_cant": "numpy.allclose is asymmetric in its arguments; only special pairs show it", "anchors": ["src/earthkit/regrid/gridspec.py:GridSpec.compare_key", "src/earthkit/regrid/gridspec.py:LLGridSpec.__eq__"]}
{"id": "C34", "title": "Grid names are case-insensitive", "statement": "Changing the letter case of a grid name changes neither the outcome of matching nor which inventory entry is found.", "quantifier": "every grid name and every inventory entry", "why_tests_cant": "all names", "anchors": ["src/earthkit/regrid/gridspec.py:GridSpec.compare_key"]}
{"id": "C35", "title": "Longitudes are compared modulo 360", "statement": "Normalising a longitude gives the unique value in [m, m+360) congruent to it mod 360, and always terminates; shifting the west/east of a global grid by whole turns does not change what it matches.", "quantifier": "every exact longitude and every number of turns", "why_tests_cant": "unbounded loops", "anchors": ["src/earthkit/regrid/gridspec.py:GridSpec.normalise_lon", "src/earthkit/regrid/gridspec.py:LLGridSpec.is_global_ew"]}
{"id": "C36", "title": "Documented global grids resolve", "statement": "For each listed global lat-lon resolution, the short gridspec {'grid':[d,d]} matches the inventory's full description of that global grid, and no two listed resolutions match each other.", "quantifier": "the whole table of listed resolutions, both directions", "why_tests_cant": "pairwise over the table with area defaults", "anchors": ["src/earthkit/regrid/gridspec.py:LLGridSpec.GLOBAL_AREAS", "src/earthkit/regrid/gridspec.py:LLGridSpec.__eq__"]}
{"id": "C37", "title": "HEALPix orderings are kept apart", "statement": "A ring grid never matches a nested grid; no order means ring; 'ordering' and 'order' are the same option; any other order raises ValueError when it is compared.", "quantifier": "every HEALPix gridspec", "why_tests_cant": "all grids", "anchors": ["src/earthkit/regrid/gridspec.py:HealpixGridSpec"]}
{"id": "C38", "title": "Different grid types and shapes never match", "statement": "Gridspecs of different types, with different scanning flags, different grid names (beyond case), or with both shapes given and different never match.", "quantifier": "every pair", "why_tests_cant": "all pairs", "anchors": ["src/earthkit/regrid/gridspec.py:GridSpec.__eq__"]}
{"id": "C39", "title": "Index lookup is sound, complete and first-match", "statement": "A lookup returns an inventory entry iff some entry has the method and matches both grids, and then it is the first such entry.", "quantifier": "every inventory, every request", "why_tests_cant": "all inventories", "anchors": ["src/earthkit/regrid/backends/db.py:MatrixIndex.find", "src/earthkit/regrid/backends/db.py:MatrixIndex.match"]}
{"id": "C40", "title": "Unsupported inventory entries are skipped alone", "statement": "Loading an inventory index keeps exactly the entries whose grids are supported, in order, unaffected by the others; a wrong version raises ValueError.", "quantifier": "every index file content", "why_tests_cant": "all contents", "anchors": ["src/earthkit/regrid/backends/db.py:MatrixIndex.load"]}
{"id": "C41", "title": "Nearest-neighbour aliases are the same method", "statement": "'nn' and 'nearest-neighbor' find exactly what 'nearest-neighbour' finds; no other method name is rewritten.", "quantifier": "every inventory and request", "why_tests_cant": "all inventories", "anchors": ["src/earthkit/regrid/backends/db.py:MatrixDb._method_alias", "src/earthkit/regrid/backends/db.py:MatrixDb.find_entry"]}
{"id": "C42", "title": "A subset inventory answers like the original", "statement": "The index written for a subset reloads, contains only entries of the original, and every filter that was listed resolves in it to the entry it resolved to in the original.", "quantifier": "every inventory, every filter list", "why_tests_cant": "ordering and duplicates over all inventories", "anchors": ["src/earthkit/regrid/backends/db.py:MatrixIndex.subset", "src/earthkit/regrid/backends/db.py:MatrixIndex.to_raw"]}
{"id": "C43", "title": "Missing weights cost at most one remote check", "statement": "Against a remote inventory with the disk cache on, once a remote check has completed further lookups that find nothing cause no further remote access, and lookups that succeed from the loaded index never cause an index download.", "quantifier": "every history of lookups", "why_tests_cant": "session histories", "anchors": ["src/earthkit/regrid/backends/db.py:MatrixDb.find_entry", "src/earthkit/regrid/backends/db.py:UrlAccessor"]}
{"id": "C44", "title": "Reload brings the remote index", "statement": "After a reload against a remote whose checksum file matches its index, the index in use is the remote's current index, whether the cached copy was absent, stale or current, and an up-to-date copy is not downloaded again.", "quantifier": "every cached state, every sequence of remote updates", "why_tests_cant": "all cache states", "anchors": ["src/earthkit/regrid/backends/db.py:UrlAccessor._get_index", "src/earthkit/regrid/utils/caching.py:cache_file"]}
{"id": "C45", "title": "Local inventories see new entries", "statement": "An entry added on disk to a local inventory index is found by later lookups without restarting, and a local lookup never uses the network.", "quantifier": "every history of index edits and lookups", "why_tests_cant": "histories", "anchors": ["src/earthkit/regrid/backends/db.py:LocalAccessor", "src/earthkit/regrid/backends/db.py:MatrixDb.find_entry"]}
{"id": "C46", "title": "Precomputed regridding is the sparse product", "statement": "regrid with precomputed weights returns W·x reshaped to the target shape, where W is the stored sparse matrix: linear in x, each output point depends only on the input points with a stored weight in its row, rows of non-negative weights summing to one keep values within the range of the inputs and preserve constants, single-weight-one rows copy input values.", "quantifier": "every well-formed sparse matrix and every input field", "why_tests_cant": "all matrices and fields", "anchors": ["src/earthkit/regrid/backends/precomputed.py:MatrixBackend.regrid", "src/earthkit/regrid/backends/precomputed.py:MatrixBackend.interpolate"]}
{"id": "C47", "title": "Mis-sized input is refused", "statement": "If the number of input values differs from the number of matrix columns, or the matrix rows do not fill the target shape, regrid raises and returns no data; a request without weights raises ValueError.", "quantifier": "every matrix, field and shape", "why_tests_cant": "all sizes", "anchors": ["src/earthkit/regrid/backends/precomputed.py:MatrixBackend.regrid"]}
{"id": "C48", "title": "Field lists are regridded field by field", "statement": "Regridding a field list gives a list of the same length and order where item i depends only on input field i and the requested grid; with an unsupported target nothing is processed.", "quantifier": "every field list", "why_tests_cant": "all lengths and backends", "anchors": ["src/earthkit/regrid/data/fieldlist.py:FieldListDataHandler._regrid_array", "src/earthkit/regrid/data/fieldlist.py:FieldListDataHandler._regrid_grib", "src/earthkit/regrid/data/fieldlist.py:FieldDataHandler.regrid"]}
{"id": "C49", "title": "Inputs are routed to one handler", "statement": "Each supported input kind is routed to exactly the handler documented for it and unsupported inputs (including plain arrays in the high-level regrid) raise ValueError.", "quantifier": "every input kind and every set of loaded modules", "why_tests_cant": "combinations", "anchors": ["src/earthkit/regrid/data/__init__.py:get_data_handler", "src/earthkit/regrid/regrid.py:regrid"]}
{"id": "C50", "title": "Backends are created once per configuration", "statement": "get_backend with equal arguments always returns the same backend object, with different inventories different ones; unknown names raise ValueError and register nothing.", "quantifier": "every history of calls", "why_tests_cant": "histories", "anchors": ["src/earthkit/regrid/backends/__init__.py:BackendMaker.__call__", "src/earthkit/regrid/backends/__init__.py:BackendMaker._make_key", "src/earthkit/regrid/backends/precomputed.py:MatrixBackend.get_db"]}
{"id": "C51", "title": "MIR options reach MIR", "statement": "Every documented option passed to regrid with the MIR backend is set on the MIR job, and area is moved from the gridspec to the job without changing the caller's dict.", "quantifier": "every option combination and gridspec", "why_tests_cant": "combinations", "anchors": ["src/earthkit/regrid/backends/mir.py:MirBackend.regrid", "src/earthkit/regrid/backends/mir.py:MirBackend.regrid_grib", "src/earthkit/regrid/backends/mir.py:MirBackend.adjust_options"]}
{"id": "C52", "title": "Stream values round-trip", "statement": "Any sequence of values written with the stream writers is read back unchanged by the corresponding readers, leaving the stream at the end; a reader applied to a different tag raises.", "quantifier": "every sequence of values in range", "why_tests_cant": "all sequences", "anchors": ["src/earthkit/regrid/utils/stream.py:Stream"]}
{"id": "C53", "title": "MIR matrices decode exactly", "statement": "Decoding a MIR cached matrix file gives exactly the rows, columns, row pointers, column indices and values that were encoded, for both byte orders and for 4- and 8-byte scalars.", "quantifier": "every well-formed matrix", "why_tests_cant": "all matrices", "anchors": ["src/earthkit/regrid/utils/mir.py:mir_cached_matrix_to_array"]}
{"id": "C54", "title": "Truncated MIR matrices are refused", "statement": "No proper prefix of a well-formed MIR matrix file decodes to a matrix.", "quantifier": "every well-formed file, every cut point", "why_tests_cant": "every crash point", "anchors": ["src/earthkit/regrid/utils/mir.py:mir_cached_matrix_to_array", "src/earthkit/regrid/utils/stream.py:Stream.read_large_blob"]}
{"id": "C55", "title": "Griddef files are exact", "statement": "The file written for lists of latitudes and longitudes contains the count and every coordinate pair in order and nothing else; unequal or empty lists raise before anything is written.", "quantifier": "every coordinate list", "why_tests_cant": "all lists", "anchors": ["src/earthkit/regrid/utils/mir.py:mir_write_latlon_to_griddef"]}
{"id": "C56", "title": "Griddef file names identify their coordinates", "statement": "Two different coordinate lists never share a griddef file.", "quantifier": "every pair of coordinate lists or arrays", "why_tests_cant": "requires long arrays differing in the middle", "anchors": ["src/earthkit/regrid/utils/mir.py:_griddef_from_latlon"]}
{"id": "C57", "title": "Cached files are never partial", "statement": "If the path returned by the disk cache exists, it holds a complete file written by one creation, whatever other processes do and wherever any of them crashes.", "quantifier": "every number of processes, every interleaving, every crash point", "why_tests_cant": "schedules and crash points", "anchors": ["src/earthkit/regrid/utils/caching.py:cache_file"]}
{"id": "C58", "title": "A crashed download is recovered", "statement": "After a crash at any point of creating a cache file, the next request for it returns a complete file that is registered with its size.", "quantifier": "every crash point, any number of crashes", "why_tests_cant": "crash points", "anchors": ["src/earthkit/regrid/utils/caching.py:cache_file", "src/earthkit/regrid/utils/caching.py:CacheManager._register_cache_file", "src/earthkit/regrid/utils/caching.py:CacheManager._update_entry"]}
{"id": "C59", "title": "Cache file names identify requests", "statement": "Two disk-cache requests map to the same file iff owner, arguments, extra hash data and extension are the same.", "quantifier": "every pair of requests", "why_tests_cant": "injectivity over infinite domain", "anchors": ["src/earthkit/regrid/utils/caching.py:cache_file"]}
{"id": "C60", "title": "Trimming spares new and in-progress entries", "statement": "Automatic trimming never deletes the most recent complete entry, nor an entry registered at or after the oldest unfinished one (other than files attached to a deleted entry).", "quantifier": "every cache content and every limit", "why_tests_cant": "all contents", "anchors": ["src/earthkit/regrid/utils/caching.py:CacheManager._decache", "src/earthkit/regrid/utils/caching.py:CacheManager._latest_date"]}
{"id": "C61", "title": "Trimming reaches the limit or exhausts candidates", "statement": "After check_size with a maximum size, the cache size is at most the maximum or nothing eligible is left.", "quantifier": "every cache content and limit", "why_tests_cant": "all contents", "anchors": ["src/earthkit/regrid/utils/caching.py:CacheManager._check_cache_size", "src/earthkit/regrid/utils/caching.py:CacheManager._decache"]}
{"id": "C62", "title": "Trimming order", "statement": "Trimming deletes orphans first and then least recently accessed entries first, and stops once enough is freed.", "quantifier": "every cache content", "why_tests_cant": "all contents", "anchors": ["src/earthkit/regrid/utils/caching.py:CacheManager._decache"]}
{"id": "C63", "title": "purge empties the cache", "statement": "After cache.purge() the cache size is 0 and no entries remain; purge(matcher) removes exactly the matching entries and the files attached to them.", "quantifier": "every cache content, every matcher", "why_tests_cant": "all contents", "anchors": ["src/earthkit/regrid/utils/caching.py:CacheManager._purge_cache", "src/earthkit/regrid/utils/caching.py:CacheManager._delete_entry"]}
{"id": "C64", "title": "Disk cache records are unique and consistent", "statement": "There is never more than one record per path, cache.size() is the sum of recorded sizes and accesses counts the requests since registration.", "quantifier": "every history of manager operations", "why_tests_cant": "histories", "anchors": ["src/earthkit/regrid/utils/caching.py:CacheManager._register_cache_file", "src/earthkit/regrid/utils/caching.py:CacheManager._cache_size"]}
{"id": "C65", "title": "Nothing outside the cache directory is deleted", "statement": "No cache operation deletes a file whose path is not inside the cache directory.", "quantifier": "every history, every record content", "why_tests_cant": "all paths", "anchors": ["src/earthkit/regrid/utils/caching.py:CacheManager._ensure_in_cache", "src/earthkit/regrid/utils/caching.py:CachePolicy.file_in_cache_directory", "src/earthkit/regrid/utils/caching.py:CacheManager._delete_file"]}
{"id": "C66", "title": "Manager requests are served once, in order", "statement": "Requests to the cache manager are executed one at a time in submission order and each caller gets the outcome (value or exception) of its own request.", "quantifier": "every number of callers and every schedule", "why_tests_cant": "schedules", "anchors": ["src/earthkit/regrid/utils/caching.py:CacheManager.run", "src/earthkit/regrid/utils/caching.py:CacheManager.enqueue", "src/earthkit/regrid/utils/caching.py:Future"]}
{"id": "C67", "title": "The active cache policy follows the configuration", "statement": "After every config change the active policy has the configured name, directory and limits.", "quantifier": "every history of config changes", "why_tests_cant": "histories", "anchors": ["src/earthkit/regrid/utils/caching.py:Cache._config_changed", "src/earthkit/regrid/utils/caching.py:CachePolicy.update", "src/earthkit/regrid/utils/caching.py:CachePolicy.outdated"]}
{"id": "C68", "title": "temporary-directory-root is honoured", "statement": "With cache-policy off, the temporary directory is created under temporary-directory-root.", "quantifier": "every configuration", "why_tests_cant": "option is never read back from the snapshot", "anchors": ["src/earthkit/regrid/utils/caching.py:NoCachePolicy", "src/earthkit/regrid/utils/caching.py:CachePolicy.__init__"]}
{"id": "C69", "title": "Cache locks cannot deadlock", "statement": "No interleaving of threads calling cache operations and config changes can block forever on the cache's locks.", "quantifier": "every number of threads, every interleaving", "why_tests_cant": "schedules", "anchors": ["src/earthkit/regrid/utils/caching.py:Cache.policy", "src/earthkit/regrid/utils/caching.py:Cache._make_policy", "src/earthkit/regrid/utils/caching.py:Cache._call_manager", "src/earthkit/regrid/utils/caching.py:Cache._config_changed"]}
{"id": "C70", "title": "Downloads are reused as configured", "statement": "With check-out-of-date-urls off a cached download is reused without contacting the server; it is replaced only if the server copy changed and re-download is enabled; download_and_cache returns the path of the file.", "quantifier": "every configuration, every server answer, every cache state", "why_tests_cant": "combinations", "anchors": ["src/earthkit/regrid/utils/download.py:download_and_cache"]}
{"id": "C71", "title": "Building adds one findable entry", "statement": "make_matrix adds or replaces exactly one index entry, keeps all others, and a lookup with the source and target gridspec and method finds it (or an earlier matching one), with its file where lookups read it.", "quantifier": "every index and every MIR description", "why_tests_cant": "all indexes", "anchors": ["src/earthkit/regrid/utils/builder.py:make_matrix", "src/earthkit/regrid/backends/db.py:MatrixIndex.matrix_path"]}
{"id": "C72", "title": "Merging inventories loses nothing", "statement": "merge_index writes the union of the two indexes and fails instead of silently dropping an entry present in both.", "quantifier": "every pair of indexes", "why_tests_cant": "all overlaps", "anchors": ["tools/manage/merge_index.py:merge"]}
{"id": "C73", "title": "Distinct coordinates describe every grid point", "statement": "When a 2-D target grid gets 1-D latitude/longitude coordinates, the latitude (longitude) of every grid point equals the coordinate of its row (column).", "quantifier": "every 2-D coordinate field", "why_tests_cant": "tests use regular grids only", "anchors": ["src/earthkit/regrid/data/xarray.py:GridWrapper._distinct_lats", "src/earthkit/regrid/data/xarray.py:GridWrapper._distinct_lons", "src/earthkit/regrid/data/xarray.py:GridWrapper.to_distinct_latlons"]}
{"id": "C74", "title": "xarray output geometry is consistent", "statement": "The coordinates attached to regridded xarray data have the sizes of their dimensions and the non-geographic dimensions are kept in order, every slice being regridded independently.", "quantifier": "every dataset shape and target grid", "why_tests_cant": "all shapes", "anchors": ["src/earthkit/regrid/data/xarray.py:XarrrayGeographyBuilder.coords", "src/earthkit/regrid/data/xarray.py:XarrayDataHandler.regrid", "src/earthkit/regrid/data/xarray.py:xr_geo_dims"]}
{"id": "C75", "title": "The in-memory cache follows the last configuration", "statement": "After any history, the policy in force is the one configured last and, under a limited policy, so are the limit and the strict flag; lookups and clears never change them.", "quantifier": "every finite history of lookups, clears and valid config changes", "why_tests_cant": "The check functions of the policies rewrite the limit and strict flag as a side effect; which of these rewrites survive depends on the whole history of policy changes, which tests only sample.", "anchors": ["src/earthkit/regrid/utils/memcache.py:MemoryCache.update", "src/earthkit/regrid/utils/memcache.py:NoPolicy.check", "src/earthkit/regrid/utils/memcache.py:UnlimitedPolicy.check"]}
{"id": "C76", "title": "Matching grids cover the same latitudes", "statement": "If two gridspecs of the same type match, their northern and southern limits agree within tolerance.", "quantifier": "every pair of gridspecs with numeric areas", "why_tests_cant": "The latitude test exists for lat-lon grids but the reduced Gaussian comparison takes a short cut for grids that go round the globe; whether any band can slip through is a question about all pairs.", "anchors": ["src/earthkit/regrid/gridspec.py:LLGridSpec.__eq__", "src/earthkit/regrid/gridspec.py:ReducedGGGridSpec.__eq__"]}
{"id": "C77", "title": "Settings files of older releases are migrated at start-up", "statement": "When the package starts and the configuration file at the new location is absent while a settings file of an older release is present, the values of the old file are the ones in force afterwards.", "quantifier": "every content of the old and new files, every environment", "why_tests_cant": "The unit tests never start from an old installation; the combinations of present/absent/versioned files are unbounded in content.", "anchors": ["src/earthkit/regrid/utils/config.py:_init_config"]}
{"id": "C78", "title": "A process starting while another one saves reads the old or the new configuration", "statement": "Whatever the interleaving of a saving process with a process that starts and loads the configuration file, the starting process sees either the complete configuration before the save or the complete configuration after it.", "quantifier": "every old and new configuration and every moment at which the second process reads", "why_tests_cant": "Needs two processes and control over the instant at which the file is read in the middle of a write.", "anchors": ["src/earthkit/regrid/utils/config.py:save_config"]}
{"id": "C79", "title": "East-west globality of a grid given without the flag is computed from its area and increment", "statement": "For a regular lat-lon grid the computed globality is true exactly when going east from the western to the eastern edge plus one increment closes the circle (within the tolerance), however the two longitudes are written.", "quantifier": "every area and increment (rationals)", "why_tests_cant": "Unit tests only use a handful of global grids written in 0..360; the wrap-around forms and partial areas are infinitely many.", "anchors": ["src/earthkit/regrid/gridspec.py:LLGridSpec.is_global_ew"]}
{"id": "C80", "title": "Inventory entries do not share a weights file", "statement": "Two different entries of one inventory that have the same engine, version and method never resolve to the same weights file, and every entry resolves to engine_version_method/name.npz.", "quantifier": "every inventory, every two entries", "why_tests_cant": "a fixture has a handful of names; a clash needs two entries whose names and directories join to the same path", "anchors": ["src/earthkit/regrid/backends/db.py:301-369"]}
{"id": "C81", "title": "A lookup that failed on the network can be repeated", "statement": "When a lookup fails because the network failed, the same lookup made again in that session once the network is back gives what it would have given with the network up from the start.", "quantifier": "every session state, every choice of which of the two downloads fails", "why_tests_cant": "needs a failure between two downloads of one lookup, in a particular state of cache and session flags", "anchors": ["src/earthkit/regrid/backends/db.py:117-206", "src/earthkit/regrid/backends/db.py:488-498"]}
{"id": "C82", "title": "A regrid gives the stored weights times the values, whatever the process did before", "statement": "Through every history of regrids, cache clears and valid configuration changes in a process, array regrid with precomputed weights returns the product of the given values with the weights stored for the first index entry that answers the request; the history changes neither values nor exceptions (strict mode off).", "quantifier": "every history, inventory, grids and values", "why_tests_cant": "composition of gridspec parsing, cache key, cache, index and product over unbounded histories", "anchors": ["src/earthkit/regrid/backends/db.py:MatrixDb.find", "src/earthkit/regrid/backends/precomputed.py:MatrixBackend.regrid", "src/earthkit/regrid/utils/memcache.py:MemoryCache.get"]}
{"id": "C83", "title": "The deprecated interpolate is regrid with precomputed weights", "statement": "interpolate() has the same outcome and effects as regrid(..., backend=\"precomputed\") for arrays and field lists, with a given in_grid in place of the one of the field metadata.", "quantifier": "every input, method and inventory", "why_tests_cant": "two code paths compared on all inputs", "anchors": ["src/earthkit/regrid/data_interpolate.py:FieldListDataHandler.interpolate", "src/earthkit/regrid/backends/precomputed.py:MatrixBackend.interpolate"]}
{"id": "C84", "title": "Decoded MIR matrices are well formed", "statement": "Every file that decodes gives a matrix with non-decreasing row pointers from 0 to the number of entries and with column indices below the number of columns.", "quantifier": "every byte string", "why_tests_cant": "all corrupted files", "anchors": ["src/earthkit/regrid/utils/mir.py:mir_cached_matrix_to_array"]}
{"id": "C85", "title": "Griddef files that are returned hold their points", "statement": "Through every sequence of calls, interrupted or not, the griddef file returned for coordinates holds exactly these coordinates.", "quantifier": "every history and crash point", "why_tests_cant": "histories and crash points", "anchors": ["src/earthkit/regrid/utils/mir.py:_griddef_from_latlon"]}
{"id": "C86", "title": "mir_make_matrix delivers the matrix", "statement": "If MIR succeeds, mir_make_matrix leaves the decoded weights at output (or returns them when output is None) and no other file; otherwise it raises and leaves no file at output.", "quantifier": "every grid arguments, output, options and MIR result", "why_tests_cant": "combinations of arguments and MIR results; MIR is not available to tests", "anchors": ["src/earthkit/regrid/utils/mir.py:mir_make_matrix", "src/earthkit/regrid/utils/mir.py:mir_cached_matrix_to_file"]}
{"id": "C87", "title": "The summary of the disk cache is always available", "statement": "cache.summary_dump_database() returns the number of entries and the sum of their sizes, also while entries are being created.", "quantifier": "every cache state", "why_tests_cant": "Tests call it on a settled cache; whether it works while a download is in progress depends on the state of the table.", "anchors": ["src/earthkit/regrid/utils/caching.py:552-558"]}
{"id": "C88", "title": "A file wanted by many is created once", "statement": "While nothing is removed from the cache directory, any number of processes that request the same file publish it at most once; if in addition no creation fails and no process crashes, only one of them ever starts creating it.", "quantifier": "every number of processes, every interleaving", "why_tests_cant": "schedules of several processes", "anchors": ["src/earthkit/regrid/utils/caching.py:cache_file"]}
{"id": "C89", "title": "Policy temporary leaves the user's cache alone", "statement": "With cache-policy temporary only the temporary cache directory (and its configured root) is created, and it works whether or not the user cache directory can be created.", "quantifier": "every configuration and file system", "why_tests_cant": "needs a configuration whose user directory does not exist or is not writable", "anchors": ["src/earthkit/regrid/utils/caching.py:TmpCachePolicy.__init__", "src/earthkit/regrid/utils/caching.py:UserCachePolicy.__init__"]}
{"id": "C90", "title": "Unrelated configuration changes keep the cache directory", "statement": "A configuration change that changes neither the policy nor the directory options keeps cache.directory().", "quantifier": "every history and configuration", "why_tests_cant": "histories of configuration changes", "anchors": ["src/earthkit/regrid/utils/caching.py:Cache._config_changed", "src/earthkit/regrid/utils/caching.py:CachePolicy.outdated", "src/earthkit/regrid/utils/caching.py:NoCachePolicy"]}
{"id": "C91", "title": "The cache manager works with the active policy", "statement": "After every configuration change that returned, the manager thread uses the directory and limits of the active policy.", "quantifier": "every history, including exceptions of the manager and unreadable options", "why_tests_cant": "histories with failures in between", "anchors": ["src/earthkit/regrid/utils/caching.py:Cache._config_changed", "src/earthkit/regrid/utils/caching.py:CachePolicy.update", "src/earthkit/regrid/utils/caching.py:CacheManager._config_changed"]}
{"id": "C92", "title": "A failed download keeps the old copy", "statement": "If download_and_cache raises, the copy that was in the cache is still there.", "quantifier": "every configuration, server behaviour and cache state", "why_tests_cant": "failures between deletion and download", "anchors": ["src/earthkit/regrid/utils/download.py:download_and_cache", "src/earthkit/regrid/utils/caching.py:cache_file"]}
{"id": "C93", "title": "A refused merge leaves the result file alone", "statement": "If merge_index fails, the result file is what it was before.", "quantifier": "every pair of indexes and every previous result", "why_tests_cant": "all overlaps and failures", "anchors": ["tools/manage/merge_index.py:merge", "tools/manage/merge_index.py:check_file"]}
{"id": "C94", "title": "Only inventories of the supported version are merged", "statement": "An index of another version is not merged into the system index as if it were of its version.", "quantifier": "every pair of indexes and versions", "why_tests_cant": "all versions", "anchors": ["tools/manage/merge_index.py:merge", "src/earthkit/regrid/backends/db.py:VERSION"]}
{"id": "C95", "title": "An input grid given for xarray data is used", "statement": "When the caller gives grid_spec for xarray data, this is the grid the data is interpolated from.", "quantifier": "every combination of attribute, argument and accessor", "why_tests_cant": "all combinations of sources", "anchors": ["src/earthkit/regrid/data/xarray.py:XarrayDataHandler.get_in_grid"]}
{"id": "C96", "title": "Concurrent regrids find the weights of the inventory", "statement": "When several threads regrid with one inventory, each lookup finds the first matching entry of the inventory, or reports missing weights exactly when there is none, and ends.", "quantifier": "every number of threads, inventory, requests and schedule", "why_tests_cant": "outcomes depend on interleavings of the unlocked loading of the index", "anchors": ["src/earthkit/regrid/backends/db.py:MatrixDb.index", "src/earthkit/regrid/backends/db.py:MatrixDb._load_index", "src/earthkit/regrid/backends/db.py:MatrixDb.find_entry", "src/earthkit/regrid/utils/memcache.py:MemoryCache.get"]}
{"id": "C97", "title": "A remote inventory gives weights published for the request", "statement": "Values returned by a regrid with a remote inventory are the product of the input with weights that were published under the path of an entry of a published index, the first of that index to answer the request, and have that entry's shape; never weights of another entry.", "quantifier": "every history of regrids, publications, evictions, settings, network failures and new processes with the same disk cache", "why_tests_cant": "composes index refresh, two caches and downloads over unbounded histories", "anchors": ["src/earthkit/regrid/backends/db.py:MatrixDb.find", "src/earthkit/regrid/backends/db.py:UrlAccessor.matrix_path", "src/earthkit/regrid/backends/db.py:MatrixDb.load_matrix", "src/earthkit/regrid/utils/memcache.py:MemoryCache.get", "src/earthkit/regrid/utils/download.py:download_and_cache"]}
{"id": "C98", "title": "Weights are those on the server", "statement": "Values returned by a regrid with a remote inventory are made with the weights that are on the server at that time (and when entry and weights are on the server, the regrid succeeds).", "quantifier": "every history", "why_tests_cant": "depends on what caches on disk and in memory hold from earlier processes", "anchors": ["src/earthkit/regrid/backends/db.py:MatrixDb.find", "src/earthkit/regrid/backends/db.py:UrlAccessor.matrix_path", "src/earthkit/regrid/backends/db.py:MatrixDb.load_matrix", "src/earthkit/regrid/utils/memcache.py:MemoryCache.get", "src/earthkit/regrid/utils/download.py:download_and_cache"]}
{"id": "C99", "title": "A method given by name means its default options", "statement": "A request that names a method gets weights made with the default options of that method, never weights made with other options.", "quantifier": "every index and request", "why_tests_cant": "all indexes; published ones happen to have no options", "anchors": ["src/earthkit/regrid/backends/db.py:MatrixIndex.find", "src/earthkit/regrid/backends/db.py:MatrixIndex.interpolation_method_name"]}
{"id": "C100", "title": "Both caches follow the configuration", "statement": "When config.set or config.reset returns, when a temporary configuration is entered and when it is left (normally or by an exception of the program), the disk cache and the in-memory cache have the policy, directory and limits that config.get reports, and keep them while they are only used; and while the in-memory cache never refused a change, what it holds is below the reported limit.", "quantifier": "every program with sets, resets, nested temporary blocks, environment changes, further observers, lookups and uses of the disk cache", "why_tests_cant": "composition of three objects over unbounded programs", "anchors": ["src/earthkit/regrid/utils/config.py:Config._changed", "src/earthkit/regrid/utils/config.py:Config._notify", "src/earthkit/regrid/utils/caching.py:Cache._config_changed", "src/earthkit/regrid/utils/memcache.py:MemoryCache.update"]}
{"id": "C101", "title": "A saved configuration can be started with", "statement": "After config.set or config.reset of an acceptable value, a new process with the same environment can import the package and reads the same configuration.", "quantifier": "every program before", "why_tests_cant": "two processes and every order of changes", "anchors": ["src/earthkit/regrid/utils/config.py:Config._changed", "src/earthkit/regrid/utils/config.py:Config._notify", "src/earthkit/regrid/utils/caching.py:Cache._config_changed", "src/earthkit/regrid/utils/memcache.py:MemoryCache.update", "src/earthkit/regrid/utils/memcache.py:MemoryCache.__init__"]}
{"id": "C102", "title": "Temporary configurations of several threads leave no trace", "statement": "If threads change the configuration only inside their own `with config.temporary(...)` blocks, the permanent configuration is never touched, and once all threads have left their blocks, in whatever order, every get gives what it gave before.", "quantifier": "any number of threads and blocks, nested or crossing, every interleaving", "why_tests_cant": "interleavings", "anchors": ["src/earthkit/regrid/utils/config.py:new_config", "src/earthkit/regrid/utils/config.py:forward", "src/earthkit/regrid/utils/config.py:Config.temporary"]}
{"id": "C103", "title": "A thread reads its own temporary configuration", "statement": "A thread inside `with config.temporary(...)` reads the values chosen there, and an option set by a thread outside of any block stays set, whatever other threads do with their own temporary configurations.", "quantifier": "any number of threads, every interleaving", "why_tests_cant": "interleavings", "anchors": ["src/earthkit/regrid/utils/config.py:new_config", "src/earthkit/regrid/utils/config.py:forward", "src/earthkit/regrid/utils/config.py:Config.temporary"]}
{"id": "C104", "title": "The inventory pages list the inventory", "statement": "The generated inventory page of a grid kind lists every inventory entry interpolated linearly whose source is of that kind, exactly once, lists nothing else, in the documented order, and can be made for every inventory.", "quantifier": "all indexes, all page kinds", "why_tests_cant": "the pages are generated from an arbitrary index; a test checks some index", "anchors": ["src/earthkit/regrid/sphinxext/generate_inventory_rst.py:execute", "src/earthkit/regrid/sphinxext/generate_inventory_rst.py:load_matrix_index_file", "src/earthkit/regrid/sphinxext/generate_inventory_rst.py:build_gs_page", "src/earthkit/regrid/sphinxext/generate_inventory_rst.py:make_gs_block", "src/earthkit/regrid/sphinxext/generate_inventory_rst.py:match", "src/earthkit/regrid/sphinxext/generate_inventory_rst.py:to_str"]}
{"id": "C105", "title": "Listed pairs can be used", "statement": "Every pair of gridspecs shown on an inventory page can be copied into a call of interpolate with method linear, and an inventory entry is found for it.", "quantifier": "all indexes, all shown pairs", "why_tests_cant": "a universal statement over indexes and entries, through the gridspec parser and the matching", "anchors": ["src/earthkit/regrid/sphinxext/generate_inventory_rst.py:execute", "src/earthkit/regrid/sphinxext/generate_inventory_rst.py:load_matrix_index_file", "src/earthkit/regrid/sphinxext/generate_inventory_rst.py:build_gs_page", "src/earthkit/regrid/sphinxext/generate_inventory_rst.py:make_gs_block", "src/earthkit/regrid/sphinxext/generate_inventory_rst.py:match", "src/earthkit/regrid/sphinxext/generate_inventory_rst.py:to_str", "src/earthkit/regrid/gridspec.py:GridSpec.from_dict", "src/earthkit/regrid/gridspec.py:HealpixGridSpec.order", "src/earthkit/regrid/backends/db.py:MatrixIndex.find"]}
{"id": "C106", "title": "Stream objects round-trip", "statement": "Objects written with write_object are read back, class and reference, one after the other with read_object and read_string, and read_object returns None at the end of the stream.", "quantifier": "all sequences of objects, all streams", "why_tests_cant": "all sequences", "anchors": ["src/earthkit/regrid/utils/stream.py:Stream.next_object", "src/earthkit/regrid/utils/stream.py:Stream.read_object", "src/earthkit/regrid/utils/stream.py:Stream.write_object"]}
{"id": "C107", "title": "A subset written to a directory can replace the original", "statement": "When the subset tool succeeds, the directory is an inventory: its index loads, has only entries of the original, answers every listed filter with the weights of the original; whatever happens only the directory is written, and an inventory that was there is not damaged.", "quantifier": "every inventory, every filter list, every previous content of the directory, every failure", "why_tests_cant": "all inventories and failures", "anchors": ["tools/subset/subset_remote_db.py:subset_remote_db", "src/earthkit/regrid/backends/db.py:MatrixDb.copy_matrix_file", "src/earthkit/regrid/backends/db.py:MatrixIndex.subset", "src/earthkit/regrid/backends/db.py:MatrixIndex.to_raw"]}
{"id": "C108", "title": "xarray data is interpolated with the stored weights, slice by slice", "statement": "Regridding a data array with precomputed weights returns an array whose value at each position of the other dimensions and each target point is the weighted sum of the input values at that position, with the weights stored for the grid of the data, the target and the method; when they are there and fit, the array is returned; otherwise, or with unknown keyword arguments, nothing is.", "quantifier": "every data array of floating-point type, every number and order of dimensions, every inventory, target and keyword arguments", "why_tests_cant": "all arrays, dimensions and weights; the composition of xarray, array handler and backend", "anchors": ["src/earthkit/regrid/data/xarray.py:XarrayDataHandler.regrid", "src/earthkit/regrid/data/xarray.py:_RegridMethod.__call__", "src/earthkit/regrid/data/numpy.py:NumpyDataHandler.regrid", "src/earthkit/regrid/backends/precomputed.py:MatrixBackend.regrid"]}
{"id": "C109", "title": "A file is cached while the cache settings change", "statement": "A thread that asks for a cached file while other threads change the cache policy, trim the cache or ask for the same file gets the file, in a directory that was the cache directory during its call, under the name of its request and known to the table; it does not fail because of the other threads.", "quantifier": "every number of threads, every interleaving of their steps, every sequence of policies and requests", "why_tests_cant": "interleavings of threads at the accesses to the policy, the manager and the file system", "anchors": ["src/earthkit/regrid/utils/caching.py:cache_file", "src/earthkit/regrid/utils/caching.py:Cache._call_manager", "src/earthkit/regrid/utils/caching.py:Cache._config_changed", "src/earthkit/regrid/utils/caching.py:CacheManager._ensure_in_cache"]}
{"id": "C110", "title": "A file delivered by the cache can be opened", "statement": "The path returned by the cache (weights, the index of a remote inventory) names a file that is there until the caller has opened it, whatever limits are configured and whatever else is downloaded.", "quantifier": "every number of threads, every nesting of requests (downloads within create and force functions), every limit, every previous content of the cache, every time at which the pending size checks run", "why_tests_cant": "the size check runs in another thread after the path was returned; the orders of checks, requests and opens are not reachable by tests", "anchors": ["src/earthkit/regrid/utils/caching.py:cache_file", "src/earthkit/regrid/utils/caching.py:Cache.check_size", "src/earthkit/regrid/utils/caching.py:CacheManager._check_cache_size", "src/earthkit/regrid/utils/caching.py:CacheManager._latest_date", "src/earthkit/regrid/backends/db.py:UrlAccessor._get_index"]}
{"id": "C111", "title": "A creation in progress is left alone", "statement": "From the registration of a cache file until its size is recorded, trimming the cache removes neither its record nor its temporary and lock files, and the finished file is recorded with its size.", "quantifier": "every content of the cache, every limit, every sequence of requests to the managers and of changes of files meanwhile", "why_tests_cant": "needs downloads of more than two minutes and other downloads, purges and lost files at the right moments", "anchors": ["src/earthkit/regrid/utils/caching.py:cache_file", "src/earthkit/regrid/utils/caching.py:CacheManager._housekeeping", "src/earthkit/regrid/utils/caching.py:CacheManager._decache", "src/earthkit/regrid/utils/caching.py:CacheManager._latest_date", "src/earthkit/regrid/utils/caching.py:CacheManager._update_entry"]}
{"id": "C112", "title": "Starting up with any configuration file", "statement": "Whatever the environment variable, the configuration file, its directory and the settings file of an older release hold, the package can be imported; the entries of the file are then in force and every other option has its default; other files and the process's umask are as before, the file is only rewritten if an older release wrote it, and starting again finds the same options.", "quantifier": "every environment, disk and content of the files (missing, not yaml, no mapping, any mapping)", "why_tests_cant": "needs every content of a yaml file and directories that cannot be made or written", "anchors": ["src/earthkit/regrid/utils/config.py:_init_config_file", "src/earthkit/regrid/utils/config.py:_init_config", "src/earthkit/regrid/utils/config.py:_migrate_old_config", "src/earthkit/regrid/utils/config.py:Config.__init__"]}
{"id": "C113", "title": "The configuration shown is the one in force", "statement": "Displaying the configuration shows every option once, in alphabetical order, with its default and the value in force: the text of its environment variable if that is set, and otherwise the value set, also inside a temporary configuration.", "quantifier": "every program, every environment and files at start-up", "why_tests_cant": "the displays are the only record users have of what is in force; tests compare one text", "anchors": ["src/earthkit/regrid/utils/config.py:Config.__repr__", "src/earthkit/regrid/utils/config.py:Config._repr_html_", "src/earthkit/regrid/utils/config.py:Config.dump", "src/earthkit/regrid/utils/config.py:Config.env"]}
{"id": "C114", "title": "Temporary directories exist as long as the policy they belong to", "statement": "The directory that cache.directory() answers under the policies off and temporary exists until the policy is replaced, and as long as somebody keeps the policy object; a replaced policy's directory is removed; at any time every temporary directory belongs to the policy in force or to one that is kept, and changes of unrelated options leave them alone.", "quantifier": "every history of configuration changes, uses and requests for the directory, any configuration values, kept policies and failures", "why_tests_cant": "directories vanish through garbage collection of policy objects, after arbitrary sequences of changes", "anchors": ["src/earthkit/regrid/utils/caching.py:Cache._config_changed", "src/earthkit/regrid/utils/caching.py:Cache._make_policy", "src/earthkit/regrid/utils/caching.py:NoCachePolicy.directory", "src/earthkit/regrid/utils/caching.py:TmpCachePolicy", "src/earthkit/regrid/utils/temporary.py:TmpDirectory"]}
{"id": "C115", "title": "The cache reports the files it has", "statement": "cache.size() is the number of bytes on disk of the cached files, cache.entries() lists them all, the summary agrees with both, and no file is trimmed while the files are within maximum-cache-size.", "quantifier": "every history of requests to the manager and changes of the files by others", "why_tests_cant": "needs histories in which files are created, removed and replaced while the cache keeps records", "anchors": ["src/earthkit/regrid/utils/caching.py:CacheManager._cache_size", "src/earthkit/regrid/utils/caching.py:CacheManager._cache_entries", "src/earthkit/regrid/utils/caching.py:CacheManager._check_cache_size", "src/earthkit/regrid/utils/caching.py:CacheManager._update_cache", "src/earthkit/regrid/utils/caching.py:Cache.size", "src/earthkit/regrid/utils/caching.py:Cache.entries"]}
{"id": "C116", "title": "A saved copy of the configuration reproduces it", "statement": "config.save_as(path) writes a copy with which a new process reads every option as it is read now (inside temporary blocks: as inside the block), changes nothing else, and says so when it cannot write.", "quantifier": "every point of every program, every path, every later process", "why_tests_cant": "needs the combination of arbitrary program points (nested blocks, failed statements, environment variables) with a later start-up", "anchors": ["src/earthkit/regrid/utils/config.py:Config.save_as", "src/earthkit/regrid/utils/config.py:save_config", "src/earthkit/regrid/utils/config.py:_init_config"]}
{"id": "C117", "title": "A build gives every request its own matrix", "statement": "Building an inventory with build_db.py asks for every pair of different grids with every method, and the index then has one entry per request, describing that request, with the weights MIR computed for it from the data of its source grid.", "quantifier": "every list of grids and methods, everything MARS and MIR may answer, every state of the directories", "why_tests_cant": "needs the whole campaign (file names derived from grid names, files reused between requests and between runs) over all grid lists", "anchors": ["tools/utils/matrix.py:make_matrix", "tools/utils/matrix.py:create_matrix_files", "tools/utils/matrix.py:adjust_grid_name", "tools/utils/matrix.py:get_grib_file", "tools/utils/grid.py:make_grid_id", "tools/manage/build_db.py"]}
{"id": "C118", "title": "maximum-cache-disk-usage is kept", "statement": "After check_size the disk of the cache is used to at most maximum-cache-disk-usage percent, or nothing is left that may be trimmed; and nothing is trimmed while the use is within the limit.", "quantifier": "every history of the cache, every size and use of the disk, every limit", "why_tests_cant": "depends on how full the disk is and on rounding; tests cannot fill a disk", "anchors": ["src/earthkit/regrid/utils/caching.py:DiskUsage", "src/earthkit/regrid/utils/caching.py:disk_usage", "src/earthkit/regrid/utils/caching.py:_check_cache_size"]}
{"id": "C119", "title": "Every argument counts", "statement": "Whatever regrid, array.regrid or interpolate is given by keyword is either obeyed in everything the call does (backend, inventory, grids, method, options, dimensions) or refused with an exception; nothing is silently ignored.", "quantifier": "every function and kind of data, every set of keyword arguments and values", "why_tests_cant": "needs all combinations of arguments over all routes; tests try single calls", "anchors": ["src/earthkit/regrid/regrid.py:regrid", "src/earthkit/regrid/array/regrid.py:regrid", "src/earthkit/regrid/interpolate.py:interpolate", "src/earthkit/regrid/data/handler.py:backend_from_kwargs", "src/earthkit/regrid/data/numpy.py:regrid", "src/earthkit/regrid/data/grib.py:regrid", "src/earthkit/regrid/data/fieldlist.py:regrid", "src/earthkit/regrid/data/xarray.py:regrid", "src/earthkit/regrid/data_interpolate.py:backend_from_kwargs"]}
{"id": "C120", "title": "The type of the data does not change the interpolation", "statement": "The values of a regridded data array are the weighted sums of the input values whatever the type of the data (floats, integers, booleans), as they are for numpy arrays.", "quantifier": "every data array and type of its values, every inventory, target and keyword arguments", "why_tests_cant": "all arrays, weights and types; tests use floats", "anchors": ["src/earthkit/regrid/data/xarray.py:XarrayDataHandler.regrid", "src/earthkit/regrid/data/xarray.py:_regrid"]}
{"id": "C121", "title": "Missing values spread only to points that use them", "statement": "With precomputed weights, a value of the input (missing, infinite or any number) influences exactly the target points that have a non-zero weight for it; a missing value makes those points missing and no others.", "quantifier": "every well-formed sparse matrix with finite weights, every field with missing and infinite values, every rounding", "why_tests_cant": "all matrices and patterns of missing values; tests use complete fields", "anchors": ["src/earthkit/regrid/backends/precomputed.py:MatrixBackend.regrid"]}
{"id": "C122", "title": "Computed values are accurate", "statement": "With precomputed weights in floating-point arithmetic every finite result differs from the exact weighted sum by at most the accumulated rounding errors (relative to the sum of the absolute values of the terms, growing with the number of stored weights); non-negative weights keep it within the range of the values used, up to that error; and the result is a finite number if the values used are and the terms stay away from overflow.", "quantifier": "every rounding of given relative and absolute accuracy, every sparse matrix and field", "why_tests_cant": "all matrices, values and roundings; tests compare with stored results", "anchors": ["src/earthkit/regrid/backends/precomputed.py:MatrixBackend.regrid"]}
{"id": "C123", "title": "The memory limit bounds the memory taken by weights", "statement": "Under the limited policies the bytes of all weights kept in memory (counted from the arrays, not from the cache's own bookkeeping) equal the reported size and stay below the limit; room is made before weights are loaded, so that even while they are loaded what is kept and what is loaded fit the limit together.", "quantifier": "every history of lookups, reconfigurations and clearings, every matrix and its recorded size, every inventory", "why_tests_cant": "the moment inside a lookup is not observable, and histories and sizes are unbounded", "anchors": ["src/earthkit/regrid/utils/memcache.py:MemoryCache._create_with_pre_check", "src/earthkit/regrid/utils/matrix.py:matrix_memory_size", "src/earthkit/regrid/utils/memcache.py:estimate_matrix_size"]}
{"id": "C124", "title": "The comparisons of the tests refuse wrong results", "statement": "A comparison helper of utils/testing.py that passes means that the result agrees with the reference: values within the tolerance at every point, coordinates equal, dimensions in the expected order and of the expected sizes; and correct results pass.", "quantifier": "every result and reference, every tolerance, every dataset", "why_tests_cant": "tests cannot tell whether the comparisons they rest on refuse anything", "anchors": ["src/earthkit/regrid/utils/testing.py:compare_global_ll_results", "src/earthkit/regrid/utils/testing.py:compare_coord", "src/earthkit/regrid/utils/testing.py:compare_dim_order", "src/earthkit/regrid/utils/testing.py:compare_dim_size"]}
{"id": "C125", "title": "The merging tool writes where it is told, and a dry run nothing", "statement": "merge_index writes only in the output directory; after success its index has the entries of the input (after those of the system's index in mode system); with --dry-run no file or directory is changed, and the dry run ends as the run would.", "quantifier": "every disk, every pair of directories, every reply of the server", "why_tests_cant": "all contents of both directories, including the same directory for both; there is no test of the tool", "anchors": ["tools/manage/merge_index.py:main", "tools/manage/merge_index.py:merge", "tools/utils/matrix.py:download_index_file"]}
{"id": "C126", "title": "The tables of options in the documentation", "statement": "Each table of options has exactly the options its page asks for, once and in order, with their defaults and the environment variables that set them; the defaults are shown without the home directory and the name of who built the pages, and stand for the real values.", "quantifier": "every home directory and user name, every list of names a page gives, every text that is a default", "why_tests_cant": "home and user are those of the machine that builds the pages; the recursion of tidy ends for some names only", "anchors": ["src/earthkit/regrid/sphinxext/generate_config_rst.py:tidy", "src/earthkit/regrid/sphinxext/generate_config_rst.py:execute", "src/earthkit/regrid/sphinxext/generate_config_env_rst.py:execute"]}
{"id": "C127", "title": "Temporary files", "statement": "A temporary file is there until its object is cleaned up, leaves its with block or is destroyed, and gone afterwards; the object removes its own file, once, and no other; a with block ends as its body does.", "quantifier": "every history of objects, of cleanups and of files others make and remove; every body of a with block", "why_tests_cant": "the interesting cases are other programs that remove or make files at the same path", "anchors": ["src/earthkit/regrid/utils/temporary.py:TmpFile", "src/earthkit/regrid/utils/temporary.py:temp_file"]}
{"id": "C128", "title": "Weights built from MIR are the weights used", "statement": "After a build of an inventory, a regrid with that inventory for a pair of grids and a method that was built gives MIR's weights for that pair and method times the values, in the shape of the output grid.", "quantifier": "every set of requests of a build, every matrix MIR makes for them, every request for a regrid, all values, every history of the process before it", "why_tests_cant": "it joins the builder, MIR's file format, the index, the lookup and the caches; tests use inventories that were published earlier and never build one", "anchors": ["src/earthkit/regrid/utils/builder.py:make_matrix", "tools/manage/build_db.py", "src/earthkit/regrid/backends/db.py:MatrixDb.from_path", "src/earthkit/regrid/backends/db.py:MatrixDb.find"]}
{"id": "C129", "title": "The directory for trying out a build is complete", "statement": "When the script that tries out a newly built inventory goes on to its tests, the directory it tests has the index of the build and every directory of matrices of the build.", "quantifier": "every set of directories and every index; a first run and a run after one that failed or after a further build", "why_tests_cant": "the script has no tests, and what matters is what earlier runs left behind", "anchors": ["tools/manage/test_db.py:build_test_dir"]}
{"id": "C130", "title": "Which calls are carried out, and what is meant by an argument left out", "statement": "A call of regrid, array.regrid or interpolate is carried out for all its data if and only if its arguments are those its backend takes, the target grid is usable, and (for xarray data) the grid and dimensions of the data are given or can be found; otherwise it raises. An argument left out counts as its documented default; the default may be given explicitly, except for MIR's options when weights are searched and for grid_spec when the data carry their grid.", "quantifier": "every function and kind of data, every set of keyword arguments and values, every behaviour of the grid code", "why_tests_cant": "the combinations of arguments, kinds of data and backends are unbounded; tests try a few correct calls", "anchors": ["src/earthkit/regrid/regrid.py:regrid", "src/earthkit/regrid/array/regrid.py:regrid", "src/earthkit/regrid/interpolate.py:interpolate", "src/earthkit/regrid/data/handler.py:DataHandler.backend_from_kwargs", "src/earthkit/regrid/backends/mir.py:MirBackend.regrid"]}
{"id": "C131", "title": "Which descriptions of grids are accepted, and which match", "statement": "A description is accepted exactly if it names one of the four types, or names none and its grid is of one of the documented forms, and (lat-lon, reduced Gaussian) its area can be read. Two accepted descriptions match exactly if they are of one type, agree in the grid (names whatever their case, numbers within the tolerance), in the scanning flags and in the shapes where both give one, and further: orca nothing; healpix the same order; lat-lon and reduced Gaussian the same area within the tolerance, or both go round the globe from the same west (lat-lon: between the same latitudes). A description without usable type is refused with TypeError, ValueError or KeyError according to what it lacks.", "quantifier": "all pairs of descriptions, every python value at every key, every order of comparing", "why_tests_cant": "tests compare some dozens of pairs; acceptance and matching depend on every value of about ten keys and on tolerances", "anchors": ["src/earthkit/regrid/gridspec.py:GridSpec.__eq__", "src/earthkit/regrid/gridspec.py:GridSpec.compare_key", "src/earthkit/regrid/gridspec.py:LLGridSpec.__eq__", "src/earthkit/regrid/gridspec.py:ReducedGGGridSpec.__eq__", "src/earthkit/regrid/gridspec.py:HealpixGridSpec.__eq__", "src/earthkit/regrid/gridspec.py:GridSpec.from_dict"]}
{"id": "C132", "title": "Entries for other requests do not disturb a lookup", "statement": "A lookup with documented descriptions of grids gives the first entry of the index file that has the method and whose two descriptions match, and nothing if there is none; it never raises, and entries for other requests can be added or removed without changing what is found.", "quantifier": "every index file, every request", "why_tests_cant": "depends on every other entry of the inventory, also on entries of grids a later version supports", "anchors": ["src/earthkit/regrid/backends/db.py:MatrixIndex.load", "src/earthkit/regrid/backends/db.py:MatrixIndex.find", "src/earthkit/regrid/backends/db.py:MatrixIndex.interpolation_method_name", "src/earthkit/regrid/gridspec.py:GridSpec.__eq__"]}
{"id": "C133", "title": "From the index file and the request to the values", "statement": "For an index file of published entries and documented descriptions of grids, a regrid with precomputed weights gives the product of the weights of the first entry that answers the request with the values, in the shape the entry gives; ValueError if no entry answers or the sizes do not fit; the exception of reading the weights if they cannot be read. Nothing else happens, at whatever point of whatever history of regrids and cache settings of the process.", "quantifier": "every index file of published entries, all weights, all values, every documented request, every history", "why_tests_cant": "index, comparison of grids, in-memory cache and product together, for unbounded inventories and histories", "anchors": ["src/earthkit/regrid/backends/db.py:MatrixDb.find", "src/earthkit/regrid/backends/precomputed.py:MatrixBackend.regrid", "src/earthkit/regrid/utils/memcache.py:MemoryCache.get", "src/earthkit/regrid/gridspec.py:GridSpec.__eq__"]}
{"id": "C134", "title": "Entries can be purged by owner as documented", "statement": "cache.purge(matcher=...) as the documentation shows it for an owner deletes all entries of that owner, with their files and what is attached to them, and keeps the others.", "quantifier": "every cache content, every owner", "why_tests_cant": "a test sees one cache; the documented expression compares constants, so only a statement over all contents shows it never deletes anything", "anchors": ["src/earthkit/regrid/utils/caching.py:Cache.purge", "src/earthkit/regrid/utils/caching.py:CacheManager._purge_cache", "src/earthkit/regrid/utils/caching.py:CacheManager._dump_cache_database"]}
{"id": "C135", "title": "From the index file and the request to the values, in doubles", "statement": "For an index file of published entries and documented descriptions of grids, a regrid of doubles with precomputed weights gives an array in the shape of the first entry that answers: missing where a missing value has a stored weight, exactly the value where the only weight is 1, and elsewhere, when it is a number, within (n + 1) 2^-52 of the sum of the absolute values of the n terms (and n 2^-1072) of the exact weighted sum. ValueError if no entry answers or the sizes do not fit; the exception of reading the weights if they cannot be read. At whatever point of whatever history of regrids and cache settings of the process.", "quantifier": "every index file of published entries, all weights and values in doubles, every documented request, every history", "why_tests_cant": "an error bound over all doubles and all histories cannot be sampled", "anchors": ["src/earthkit/regrid/backends/db.py:MatrixDb.find", "src/earthkit/regrid/backends/precomputed.py:MatrixBackend.regrid", "src/earthkit/regrid/utils/memcache.py:MemoryCache.get"]}
{"id": "C136", "title": "Field lists, from the index file and the fields to the values", "statement": "Regridding a field list of doubles with precomputed weights, for an index file of published entries and documented grids, gives for each field, in order, a field with its metadata, the target as grid, and the values of C135 for its own grid and values; the first field whose grid cannot be told or that cannot be regridded makes the call raise its exception; targets that are not regular lat-lon are a ValueError. At whatever point of whatever history of regrids and cache settings, the in-memory cache changing from field to field.", "quantifier": "every field list, index file of published entries, weights, documented target, method and history", "why_tests_cant": "composition over all lists and histories; the cache state seen by a field depends on all earlier ones", "anchors": ["src/earthkit/regrid/data/fieldlist.py:FieldListDataHandler._regrid_array", "src/earthkit/regrid/data/fieldlist.py:FieldListDataHandler.input_gridspec", "src/earthkit/regrid/backends/db.py:MatrixDb.find", "src/earthkit/regrid/backends/precomputed.py:MatrixBackend.regrid"]}
{"id": "C137", "title": "The cache keeps its database, and deletes with an entry only its helper files", "statement": "Unless a caller names it, no operation of the cache manager – registering, updating, checking sizes, trimming, purging – deletes the file of its own database or lists it as an entry, after whatever history. A file found in the directory is attached to an entry, and deleted with it, only if it is a helper of it: the name of the entry, a dot, and more.", "quantifier": "every history of operations and of changes of the files by others", "why_tests_cant": "the database is one file among those that housekeeping adopts and trimming deletes; which files go with an entry depends on every earlier adoption", "anchors": ["src/earthkit/regrid/utils/caching.py:Cache._housekeeping", "src/earthkit/regrid/utils/caching.py:Cache._delete_entry", "src/earthkit/regrid/utils/caching.py:Cache._decache"]}
{"id": "C138", "title": "What is noted about an entry is what was noted last", "statement": "The data an owner notes with an entry (as the validators of a download) is, after every history, that of the last update of the entry that found the file, since the record was made; registering it again, housekeeping and trimming of others do not change it; without such an update nothing is noted. An update that finds the file notes its size as well.", "quantifier": "every history of operations and of changes of the files by others", "why_tests_cant": "histories are unbounded and every operation rewrites rows", "anchors": ["src/earthkit/regrid/utils/caching.py:Cache._update_entry", "src/earthkit/regrid/utils/caching.py:Cache._register_cache_file", "src/earthkit/regrid/utils/caching.py:Cache._update_cache"]}
{"id": "C139", "title": "The cache refuses paths outside it, and an operation that raises changes nothing", "statement": "After every history of operations and changes of the files by others: checking sizes and purging never raise; registering or updating a path outside the cache directory raises AssertionError; updating an entry whose file is missing raises OSError; removing a path outside raises AssertionError if the file is there; nothing else raises. An operation that raises leaves the table and the files as they were.", "quantifier": "every history, every operation", "why_tests_cant": "which deletions are reached, and in which order, depends on the whole table; an assertion in the middle of a loop over entries would leave it half done", "anchors": ["src/earthkit/regrid/utils/caching.py:Cache._ensure_in_cache", "src/earthkit/regrid/utils/caching.py:Cache._delete_entry", "src/earthkit/regrid/utils/caching.py:Cache._register_cache_file", "src/earthkit/regrid/utils/caching.py:Cache._update_entry"]}
{"id": "C140", "title": "Locks of the disk cache are given back, and nobody is stuck", "statement": "However many processes create a file of the cache, fail, die, and lose any of its files to trimming: a lock file is locked only by the process that is within the lock statement for it, so no finished, failed or dead call keeps others waiting; and from every state the processes can go on, by their own steps, until every call has returned or raised.", "quantifier": "every number of processes, every interleaving, every failure, crash and removal", "why_tests_cant": "deadlock and leaked locks show only under particular interleavings and failures", "anchors": ["src/earthkit/regrid/utils/caching.py:cache_file"]}
{"id": "C141", "title": "xarray data from the index file to the values, in doubles", "statement": "With an index file of published entries and documented grids, after any history of regrids and settings: a data array of doubles that is returned has, at every position along the dimensions that are not geographic and every point of the target, what C135 says of the weights of the first entry for its grid, the target and the method: close to the exact weighted sum, missing exactly where a used value is missing, the value itself for a single weight 1. Without such an entry, with unreadable weights or unknown keyword arguments it raises; with weights that fit it is returned. The in-memory cache, which every slice may change, never shows and is left fit for the next call.", "quantifier": "every index file of published entries, history, data array, dimensions, grids and method", "why_tests_cant": "the combination of slices, cache, index, sparse product and rounding is out of reach of examples", "anchors": ["src/earthkit/regrid/data/xarray.py:XarrayDataHandler.regrid", "src/earthkit/regrid/backends/db.py:MatrixDb.find", "src/earthkit/regrid/backends/precomputed.py:MatrixBackend.regrid"]}
{"id": "C142", "title": "Strict mode from the index file and the request to the values", "statement": "With valid settings, strict mode on or off at any point, a regrid of doubles after any history of regrids, settings and clears comes to what C135 says, or raises ValueError for one reason: the configuration made last is strict with a limited policy, and the first entry for the request is published with a size over its limit. With nothing held it is then always refused, nothing is read and the cache is as before. Strict mode switched off again, or a policy without limit, refuses nothing.", "quantifier": "every index file of published entries, history of regrids and valid settings, values, documented grids and method", "why_tests_cant": "settings, cache and index interact over histories of any length", "anchors": ["src/earthkit/regrid/utils/memcache.py:MemoryCache._create_with_pre_check", "src/earthkit/regrid/utils/memcache.py:MemoryCache.update", "src/earthkit/regrid/backends/db.py:MatrixDb.find", "src/earthkit/regrid/backends/precomputed.py:MatrixBackend.regrid"]}
{"id": "C143", "title": "Regrids of several threads, from the index file to the values", "statement": "Any number of threads of one process regrid doubles, change the settings and clear the cache, their steps interleaved in any way. Every regrid that ends comes to what C135 says for it alone, or raises ValueError because a configuration made by some thread forbids the published size (strict mode); configurations before the last completed one do not count for regrids begun later. No regrid is stuck: a thread in a regrid can always go on to its result, waiting for nobody but the holder of the cache's lock.", "quantifier": "every index file of published entries, number of threads, interleaving, values, documented grids and valid settings", "why_tests_cant": "interleavings cannot be enumerated", "anchors": ["src/earthkit/regrid/utils/memcache.py:MemoryCache.get", "src/earthkit/regrid/utils/memcache.py:MemoryCache.update", "src/earthkit/regrid/backends/db.py:MatrixDb.find", "src/earthkit/regrid/backends/precomputed.py:MatrixBackend.regrid"]}
{"id": "C144", "title": "A remote inventory, from what is on the server to the values", "statement": "With an inventory on a server whose index files are orderly (one version, entries of different names with shapes, published grids): whatever was published, fetched, evicted and configured before, in this process and in earlier ones with the same disk cache, values that a regrid of documented grids returns are, point by point in doubles, those of the first entry of an index file that was on the server that answers it, with weights that were on the server at base/engine_version_method/name.npz of that entry. On a new installation with the server reachable the outcome is decided: by the first entry of the index that answers and the file at its address; ValueError without an entry, the download's error without a file.", "quantifier": "every setting, history of the server, the caches and the process, values, documented grids and method", "why_tests_cant": "histories and values cannot be enumerated", "anchors": ["src/earthkit/regrid/backends/db.py:MatrixDb.find", "src/earthkit/regrid/backends/db.py:UrlAccessor", "src/earthkit/regrid/backends/db.py:MatrixIndex.find", "src/earthkit/regrid/utils/download.py:download_and_cache", "src/earthkit/regrid/backends/precomputed.py:MatrixBackend.regrid"]}
{"id": "C145", "title": "Many processes that share a disk cache, from the server to the values", "statement": "Any number of processes that regrid with one remote inventory and share a cache directory, interleaved in any way inside cache_file, failing, dying and forgetting at any point, with files removed from the cache only while nobody is between opening and removing the lock file: every regrid of documented grids that has ended came to what the first entry that answers gives with weights that the server sent, whole, for the address of that entry, in doubles, point by point; an error of the download only if its own download failed or something of that address was removed from the cache. And nobody waits for ever: from every reachable state, steps of the processes inside cache_file for that file let a waiting regrid end.", "quantifier": "every interleaving of any number of processes, with failures, crashes, removals, forgetting; every values, documented grids and method", "why_tests_cant": "interleavings of processes cannot be enumerated", "anchors": ["src/earthkit/regrid/utils/caching.py:cache_file", "src/earthkit/regrid/utils/download.py:download_and_cache", "src/earthkit/regrid/backends/db.py:UrlAccessor.matrix_path", "src/earthkit/regrid/backends/db.py:MatrixDb.find", "src/earthkit/regrid/backends/precomputed.py:MatrixBackend.regrid"]}
{"id": "C146", "title": "Cache locks exclude each other, and a call of the manager waits for its own answer", "statement": "Whatever the threads of any processes and the requests to the managers do with the locks of the caches, and however they are scheduled: no two of them are ever within the same lock; and a call of the manager puts its request at the end of the queue and does not go on while this request, not somebody else's, is waiting or being carried out.", "quantifier": "every program, number of threads and processes, schedule", "why_tests_cant": "schedules cannot be enumerated", "anchors": ["src/earthkit/regrid/utils/caching.py:Cache._call_manager", "src/earthkit/regrid/utils/caching.py:CacheManager.enqueue", "src/earthkit/regrid/utils/caching.py:Future", "src/earthkit/regrid/utils/caching.py:Cache._make_policy"]}
{"id": "C147", "title": "Dates in a request are part of its file name", "statement": "Whatever dates, times and indices of times the arguments of a disk-cache request hold, at any depth, it gets a file name, on every installation; and two requests get the same file iff owner, arguments, extra hash data and extension are the same.", "quantifier": "every pair of requests, pandas installed or not", "why_tests_cant": "unbounded nested values; the ISO texts of all dates, times and time zones", "anchors": ["src/earthkit/regrid/utils/caching.py:default_serialiser", "src/earthkit/regrid/utils/caching.py:cache_file"]}
{"id": "C148", "title": "Test data are what the server has", "statement": "However many calls of get_test_data run at the same time and whichever are killed: files that were there are not touched; a call that returns has dealt with the names it was asked for, in order, in the shape they were asked for, and each file is then as it was or as on the server.", "quantifier": "every server, directory, set of calls, schedule, kill", "why_tests_cant": "schedules and kills cannot be enumerated", "anchors": ["src/earthkit/regrid/utils/testing.py:get_test_data", "src/earthkit/regrid/utils/testing.py:simple_download"]}
{"id": "C149", "title": "A page of the documentation shows what its module prints", "statement": "A module-output directive that names a module puts exactly what the module's execute prints into the page, or its failure and none of the output; the standard output of the build is afterwards what it was, has got nothing of the page, and no directive depends on the directives before it.", "quantifier": "every module that leaves sys.stdout alone (its restoration: every module), every list of directives, every way a module ends except sys.exit(), which ends the build", "why_tests_cant": "modules, their output and the moment of a failure cannot be enumerated", "anchors": ["src/earthkit/regrid/sphinxext/module_output.py:ModuleOutput.run"]}
{"id": "C150", "title": "The text of the configuration file says what was saved", "statement": "The text that save_config prints, comments included, reads as exactly the options that differ from their defaults; and if the text is cut anywhere, every option a process reads from it is as saved or its default.", "quantifier": "every configuration with plain values, every description of the options, every place at which the text ends", "why_tests_cant": "values, descriptions and the byte at which a write stops cannot be enumerated", "anchors": ["src/earthkit/regrid/utils/config.py:save_config", "src/earthkit/regrid/utils/config.py:ConfigOption.save", "src/earthkit/regrid/utils/config.py:_init_config"]}
{"id": "C151", "title": "A JSON file reads as what was written; a cut one is refused", "statement": "The text json.dump writes for an index (with an indentation) or json.dumps for cache entries and request keys is read by json.load as exactly the value written; and if the writing of an object stopped anywhere, what is in the file is refused: never an index with fewer entries or other values.", "quantifier": "every JSON value with floats in their shortest form, every text including control characters and characters outside the basic plane, every indentation, every point at which the writing stopped", "why_tests_cant": "values, texts and the byte at which a write stops cannot be enumerated", "anchors": ["src/earthkit/regrid/utils/builder.py:149", "tools/manage/merge_index.py:22", "tools/subset/subset_remote_db.py:55", "src/earthkit/regrid/backends/db.py:305", "src/earthkit/regrid/utils/caching.py:247"]}
{"id": "C152", "title": "Cross references of the documentation lead where they say", "statement": "An xref role that names a target shows the target's title and leads to its address; one written `title <target>` shows that title, whatever characters it has; a target that is not in the table ends the build; every cross reference used in the pages is in the table.", "quantifier": "every table with different targets, every title and target, every text of a role", "why_tests_cant": "titles and targets cannot be enumerated; the builder of the pages is not part of the tests", "anchors": ["src/earthkit/regrid/sphinxext/xref.py:xref", "docs/conf.py:xref_links"]}
{"id": "C153", "title": "The displays of the configuration can be read", "statement": "The html display is a table with one row for every option, whose cells are the name, what is in force (the variable with its text and the stored value in parentheses, or the value) and the default; two configurations that show the same page have the same options in force; two that print the same text have the same variables and values with the same str.", "quantifier": "every program, environment and files; every repr of the values", "why_tests_cant": "a display cannot be compared for all values and texts of variables", "anchors": ["src/earthkit/regrid/utils/config.py:Config._repr_html_", "src/earthkit/regrid/utils/config.py:Config.__repr__", "src/earthkit/regrid/utils/html.py:css"]}
{"id": "C154", "title": "The command line of the subset tool means what its options say", "statement": "The tool accepts exactly the command lines that spell settings one after the other, in any order, in full or abbreviated, with the value in the next word or after an equals sign, and the last setting of a kind counts; it then makes the subset with these settings (not strict unless asked, missing combinations are errors unless allowed); a file changes only if the command line is accepted, asks for no dry run, names a configuration that can be read and an output directory, and when strict that directory is empty.", "quantifier": "every list of arguments, inventory, configuration, disk", "why_tests_cant": "argument lists cannot be enumerated; there are no tests of the tool", "anchors": ["tools/subset/subset_remote_db.py:main"]}
{"id": "C155", "title": "The command line of the merging tool means what its options say", "statement": "merge_index accepts exactly the command lines that spell settings one after the other, in any order, in full or abbreviated, with the value in the next word or after an equals sign, the last setting of a kind counting and the mode being local unless asked; it then merges what these settings name, as a dry run exactly if one is asked for anywhere; a file changes only if the command line is accepted and names an existing input directory and an output directory, and then it is the index there (no dry run) or, in mode system, one of the two downloaded files.", "quantifier": "every list of arguments, disk, reply of the server", "why_tests_cant": "argument lists cannot be enumerated; there are no tests of the tool", "anchors": ["tools/manage/merge_index.py:main"]}
{"id": "C156", "title": "The documented replacement of a deprecated call does the same", "statement": "Whoever follows the page on deprecations and writes interpolate as regrid with the backend precomputed, the method as interpolation and the matrix source as inventory, gets the same searches for weights with the same grids, or the same exception; in_grid for a field list is refused; the backends of the release notes exist; and leaving the inventory out, None and \"ecmwf\" name the same weights.", "quantifier": "every list of arguments of interpolate, every array and field list, every behaviour of the grid functions", "why_tests_cant": "two interfaces have to agree on all argument lists; tests of the deprecated one compare values for a few grids", "anchors": ["src/earthkit/regrid/interpolate.py:interpolate", "src/earthkit/regrid/data_interpolate.py", "src/earthkit/regrid/regrid.py:regrid", "src/earthkit/regrid/array/regrid.py:regrid", "docs/release_notes/deprecations.rst", "docs/guide/interpolate/interpolate.rst"]}
{"id": "C157", "title": "The configuration is a stack of pages", "statement": "Whatever a program does with the configuration (set in its three forms, reset, get, temporary configurations nested to any depth, exceptions raised and caught, variables set and removed), every get returns and every call raises what a stack of plain pages gives, on which each option has the value its documented rule makes of what was set; conversions, yaml paths, saving and observers that do not raise cannot be noticed.", "quantifier": "every program, state, environment, value", "why_tests_cant": "programs cannot be enumerated; the tests run a few calls in sequence", "anchors": ["src/earthkit/regrid/utils/config.py:Config", "src/earthkit/regrid/utils/config.py:new_config"]}
{"id": "C158", "title": "The examples of the guide do what they show", "statement": "The examples on the pages on configuration and in-memory cache run: with any option and values in place of those printed, the temporary configurations and the environment variable give the reads shown; the policy set on the page on the in-memory cache is accepted; and its calls of regrid use the weights cache.", "quantifier": "every option, value, state of the configuration, array", "why_tests_cant": "the documentation is not tested", "anchors": ["docs/guide/misc/config.rst", "docs/guide/misc/memory_cache.rst", "docs/guide/misc/include/config-temporary.py", "src/earthkit/regrid/utils/config.py:Config"]}
{"id": "C159", "title": "The page of gridspecs", "statement": "Every gridspec written as the guide's page on precomputed gridspecs says ([Oo]XXX, [Nn]XXX, [DLON, DLAT], [Hh]XXX with order nested, ring or omitted, eORCAXXX_subtype with subtype T, U, V or W) is accepted and given its type; two of the named ones match exactly if they mean the same grid (letters of either case, ring by default); lat-lon ones go round the globe from the meridian 0.", "quantifier": "every number, every documented way of writing, every pair", "why_tests_cant": "infinitely many names; the tests try a few", "anchors": ["docs/guide/precomputed/gridspec.rst", "src/earthkit/regrid/gridspec.py:GridSpec.from_dict", "src/earthkit/regrid/gridspec.py:ORCA_PATTERN"]}
{"id": "C160", "title": "The uid of an interpolation identifies it", "statement": "Two interpolations get the same uid in the index exactly if they are the same interpolation: same method and options, engine and version aside where the method's name says the rest.", "quantifier": "every pair of interpolations, every digest", "why_tests_cant": "infinitely many sets of options", "anchors": ["src/earthkit/regrid/backends/db.py:MatrixIndex.make_interpolation_uid", "src/earthkit/regrid/backends/db.py:is_gridbox_default"]}
{"id": "C161", "title": "With the cache policy off every repeated call downloads the matrix again", "statement": "When the cache policy is off, every call of regrid() that returns values downloads the interpolation matrix from the inventory, also when it repeats an earlier call (docs/guide/misc/caching.rst).", "quantifier": "every state of the process, every sequence of calls, every inventory", "why_tests_cant": "sequences of calls of any length and the interplay of two caches", "anchors": ["docs/guide/misc/caching.rst", "src/earthkit/regrid/utils/caching.py:cache_file", "src/earthkit/regrid/utils/download.py:download_and_cache", "src/earthkit/regrid/utils/memcache.py:MemoryCache.get", "src/earthkit/regrid/backends/db.py:MatrixDb.find"]}
{"id": "C162", "title": "The methods of the cache work on the cache in force", "statement": "size(), entries(), summary_dump_database(), check_size() and purge() work on the directory that cache.directory() gives and touch no other; with the cache policy off they return None and touch nothing, also when another policy was in force before.", "quantifier": "every history of configuration changes, failures and calls; every method of the manager", "why_tests_cant": "histories of any length, every directory ever in use", "anchors": ["docs/guide/misc/caching.rst", "src/earthkit/regrid/utils/caching.py:Cache._call_manager", "src/earthkit/regrid/utils/caching.py:CacheManager.new_connection", "src/earthkit/regrid/utils/caching.py:CacheManager._config_changed"]}
{"id": "C163", "title": "Matching lat-lon grids have equally many meridians", "statement": "Weights are stored for a fixed number of points: two lat-lon gridspecs that match have the same number of meridians between their western and eastern limits.", "quantifier": "every pair of lat-lon gridspecs (any increments, any areas, with and without the global flag)", "why_tests_cant": "all increments and areas; needs an argument about tolerances", "anchors": ["src/earthkit/regrid/gridspec.py:LLGridSpec.__eq__", "src/earthkit/regrid/gridspec.py:LLGridSpec.is_global_ew", "src/earthkit/regrid/gridspec.py:GridSpec.COMPARE_KEYS"]}
{"id": "C164", "title": "The cache stays within maximum-cache-size", "statement": "After every program that asks for files one after the other, changes the limit and purges the cache, the disk space used by the cache is at most maximum-cache-size, or one file is left.", "quantifier": "every limit, every finite sequence of downloads (successful or not, any sizes), changes of the limits of size and disk usage, and purges (of all, or of what a matcher picks), from an empty cache", "why_tests_cant": "needs an invariant over all histories of requests, failures and limits", "anchors": ["src/earthkit/regrid/utils/caching.py:cache_file", "src/earthkit/regrid/utils/caching.py:CacheManager._check_cache_size", "src/earthkit/regrid/utils/caching.py:CacheManager._latest_date", "src/earthkit/regrid/utils/caching.py:CacheManager._decache", "docs/guide/misc/caching.rst"]}
{"id": "C165", "title": "Matching lat-lon grids have equally many points", "statement": "Weights are stored for a fixed number of points: two lat-lon gridspecs that match have the same number of points (meridians times parallels).", "quantifier": "every pair of lat-lon gridspecs (any increments, any areas, with and without the global flag)", "why_tests_cant": "all increments and areas; needs an argument about tolerances", "anchors": ["src/earthkit/regrid/gridspec.py:LLGridSpec.__eq__", "src/earthkit/regrid/gridspec.py:GridSpec.__eq__", "src/earthkit/regrid/gridspec.py:same_area"]}
{"id": "C166", "title": "The memory recorded for weights is the memory they take", "statement": "The builder records for every matrix the bytes it takes, and the memory cache makes room by that number before it loads the weights: for every entry of a built inventory, the memory recorded is that of the matrix lookups read for it.", "quantifier": "every sequence of builds into a directory, also repeated ones and ones that raise", "why_tests_cant": "all sequences of builds and failures; needs an invariant over index and files", "anchors": ["src/earthkit/regrid/utils/builder.py:make_matrix", "src/earthkit/regrid/utils/matrix.py:matrix_memory_size", "src/earthkit/regrid/utils/memcache.py:estimate_matrix_size"]}
{"id": "C167", "title": "Interpolation keeps order, sign and range of fields", "statement": "With weights that are not negative, a field that is nowhere larger than another one is nowhere larger after interpolation; with weights that add up to one, results are between the smallest and the largest of the values used, and constant fields stay constant. With any weights the field with the other sign gives the result with the other sign. In the arithmetic of the machine.", "quantifier": "every matrix, every pair of fields of doubles, infinite values and overflow included", "why_tests_cant": "all doubles and all matrices; rounding errors depend on the values", "anchors": ["src/earthkit/regrid/backends/precomputed.py:MatrixBackend.regrid"]}
{"id": "C168", "title": "Weights of a built inventory are loaded within the memory limit", "statement": "An inventory is built by the builder; a program with a memory limit interpolates with it. Whenever weights are loaded, the weights and what the cache holds take at most the limit together; in strict mode weights that cannot fit raise ValueError.", "quantifier": "every sequence of builds, every program (requests to inventories on disk, changes of the configuration, clears), every limit, the policies lru and largest", "why_tests_cant": "needs all build sequences and all request histories at once; the number that decides is written by one program and used by another", "anchors": ["src/earthkit/regrid/utils/builder.py:make_matrix", "src/earthkit/regrid/utils/memcache.py:MemoryCache._create_with_pre_check", "src/earthkit/regrid/backends/db.py:MatrixDb._create_matrix_from_entry", "docs/guide/misc/memory_cache.rst"]}
{"id": "C169", "title": "Killed programs do not defeat maximum-cache-size", "statement": "When programs are killed while they download, the disk space used by the cache is at most maximum-cache-size, or one file is left, once the next program has begun.", "quantifier": "every number of killed programs, every size of files, every limit; every program before the kill (requests, failures, changes of limits, purges)", "why_tests_cant": "the state is that of a process killed between two statements, followed by other programs", "anchors": ["src/earthkit/regrid/utils/caching.py:cache_file", "src/earthkit/regrid/utils/caching.py:Cache._make_policy", "src/earthkit/regrid/utils/caching.py:CacheManager._check_cache_size", "src/earthkit/regrid/utils/caching.py:CacheManager._update_cache", "src/earthkit/regrid/utils/caching.py:CacheManager._cache_size"]}
{"id": "C170", "title": "Raw subsets are index files", "statement": "subset(raw=True) fails for the same filters as subset without the option; what it gives are entries of the index file as they stand there, and written with the version they are the index file of the subset.", "quantifier": "every index file, every list of filters, with and without fail_on_missing", "why_tests_cant": "no test passes raw=True; the equality is between two loops over any filters", "anchors": ["src/earthkit/regrid/backends/db.py:MatrixIndex.subset", "src/earthkit/regrid/backends/db.py:MatrixIndex.to_raw", "src/earthkit/regrid/backends/db.py:MatrixIndex.load"]}
{"id": "C171", "title": "A raw subset is an index", "statement": "The MatrixIndex returned by subset(raw=True) can be written with to_raw, and finds the entries for the filters it was made from.", "quantifier": "every index file, every list of filters, every request", "why_tests_cant": "no test passes raw=True; the comparison is that of a dict with a gridspec, decided by python's rule for reflected operands", "anchors": ["src/earthkit/regrid/backends/db.py:MatrixIndex.subset", "src/earthkit/regrid/backends/db.py:MatrixIndex.to_raw", "src/earthkit/regrid/backends/db.py:MatrixIndex.find", "src/earthkit/regrid/gridspec.py:GridSpec.__eq__"]}
{"id": "C172", "title": "A backend that cannot be imported takes nothing from the others", "statement": "Whatever importing the module of one backend raises, the other backends are there as if its file were absent; which class a name stands for does not depend on the order in which the directory is listed.", "quantifier": "every content of the directory of backends, every outcome of every import, every order of listing", "why_tests_cant": "the directory has three modules, all of which can be imported in the tests", "anchors": ["src/earthkit/regrid/backends/__init__.py:BackendMaker._builtins", "src/earthkit/regrid/backends/__init__.py:BackendMaker.__init__"]}
