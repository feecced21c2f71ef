{
 "claims": [
  {
   "property": "C01",
   "status": "proved",
   "theorems": [
    "Verif.MemCache.C01_currsize_below_limit",
    "Verif.MemCache.C01_recovers_after_load",
    "Verif.MemCache.C01_invalid_policy_name_breaks_bound",
    "Verif.MemCache.C01_zero_limit_breaks_bound"
   ],
   "note": "Proved for every history whose reconfigurations are valid; the two extra theorems show both validity conditions are needed (an unknown policy name or a zero limit breaks the bound)."
  },
  {
   "property": "C02",
   "status": "proved",
   "theorems": [
    "Verif.MemCache.C02_accounting_exact",
    "Verif.MemCache.C02_sizes_are_of_held_data"
   ],
   "note": ""
  },
  {
   "property": "C03",
   "status": "proved",
   "theorems": [
    "Verif.MemCache.C03_cached_result_is_uncached_result",
    "Verif.MemCache.C03_no_spurious_failure"
   ],
   "note": ""
  },
  {
   "property": "C04",
   "status": "proved",
   "theorems": [
    "Verif.MemCache.C04_held_is_hit",
    "Verif.MemCache.C04_not_held_is_miss",
    "Verif.MemCache.C04_counters_count_served"
   ],
   "note": ""
  },
  {
   "property": "C05",
   "status": "proved",
   "theorems": [
    "Verif.MemCache.C05_lru_evicts_least_recent"
   ],
   "note": "Last use is computed from the history alone."
  },
  {
   "property": "C06",
   "status": "proved",
   "theorems": [
    "Verif.MemCache.C06_largest_evicts_largest",
    "Verif.MemCache.C06_rejected_arrival_is_largest"
   ],
   "note": ""
  },
  {
   "property": "C07",
   "status": "proved",
   "theorems": [
    "Verif.MemCache.C07_update_evicts_only_if_needed",
    "Verif.MemCache.C07_get_evicts_only_if_needed"
   ],
   "note": ""
  },
  {
   "property": "C08",
   "status": "partial",
   "theorems": [
    "Verif.MemCache.C08_oversized_leaves_cache_partial",
    "Verif.MemCache.C08_lru_refuted",
    "Verif.MemCache.C08_exact_limit_refuted",
    "Verif.MemCache.C08_lru_flushed",
    "Verif.MemCache.C08_largest_exact"
   ],
   "note": "Proved for policy largest, with the exact condition for an arrival to leave the cache as it was (larger than the limit, or everything fits); refuted for lru (an arrival larger than the limit flushes everything, always) and for a size equal to the limit."
  },
  {
   "property": "C09",
   "status": "proved",
   "theorems": [
    "Verif.MemCache.C09_strict_refuses_oversized",
    "Verif.MemCache.C09_fitting_never_refused"
   ],
   "note": ""
  },
  {
   "property": "C10",
   "status": "proved",
   "theorems": [
    "Verif.MemCache.C10_off_keeps_nothing"
   ],
   "note": ""
  },
  {
   "property": "C11",
   "status": "proved",
   "theorems": [
    "Verif.MemCache.C11_unlimited_never_evicts",
    "Verif.MemCache.C11_unlimited_loads_once"
   ],
   "note": ""
  },
  {
   "property": "C12",
   "status": "proved",
   "theorems": [
    "Verif.MemCache.C12_clear_empties"
   ],
   "note": ""
  },
  {
   "property": "C13",
   "status": "proved",
   "theorems": [
    "Verif.MemCache.Concurrent.C13_linearizable",
    "Verif.MemCache.Concurrent.C13_held_not_loaded_again",
    "Verif.MemCache.Concurrent.C13_lock_holder_can_finish"
   ],
   "note": "Small-step model with any number of threads, lock granularity; update is split because the policy is read without the lock."
  },
  {
   "property": "C14",
   "status": "partial",
   "theorems": [
    "Verif.MemCache.C14_refuted",
    "Verif.MemCache.C14_isolated_when_off_partial",
    "Verif.MemCache.C14_whose",
    "Verif.MemCache.C14_isolated_partial"
   ],
   "note": "Refuted: the key does not contain the inventory. Exact: what is returned was loaded, since the cache was last emptied, for a request with the same key, perhaps from another inventory. Partial: isolated with policy off, or if requests with the same key use one inventory."
  },
  {
   "property": "C15",
   "status": "proved",
   "theorems": [
    "Verif.Json.C15_text_iff_same_value",
    "Verif.Json.C15_same_slot_iff_same_request",
    "Verif.Json.C15_cache_keyed_by_request"
   ],
   "note": "Canonical JSON text proved injective up to dict order and list/tuple spelling; SHA-256 assumed not to collide on the two texts at hand."
  },
  {
   "property": "C16",
   "status": "proved",
   "theorems": [
    "Verif.Config.C16_set_get",
    "Verif.Config.C16_accepted",
    "Verif.Config.C16_dict",
    "Verif.Config.C16_keywords"
   ],
   "note": "All three call forms; also when an observer raises afterwards. yaml text syntax is not part of this."
  },
  {
   "property": "C17",
   "status": "proved",
   "theorems": [
    "Verif.Config.C17_variable_wins",
    "Verif.Config.C17_removed",
    "Verif.Config.C17_names_apart",
    "Verif.Config.C17_others",
    "Verif.Config.C17_when_set",
    "Verif.Config.C17_documented"
   ],
   "note": ""
  },
  {
   "property": "C18",
   "status": "partial",
   "theorems": [
    "Verif.Config.C18_single_partial",
    "Verif.Config.C18_not_saved",
    "Verif.Config.C18_refused_iff",
    "Verif.Config.C18_refuted",
    "Verif.Config.C18_prefix"
   ],
   "note": "One name: proved. Dict/keywords: refuted; exactly the pairs before the first refused one stay set, nothing is saved and no observer is called."
  },
  {
   "property": "C19",
   "status": "partial",
   "theorems": [
    "Verif.Config.C19_layers",
    "Verif.Config.C19_restored_partial",
    "Verif.Config.C19_root_untouched",
    "Verif.Config.C19_file",
    "Verif.Config.C19_refuted",
    "Verif.Config.C19_inside_plain",
    "Verif.Config.C19_inside"
   ],
   "note": "Arbitrary nested programs with exceptions. Proved if no with-entry failed inside an observer; refuted otherwise (the notification on entry is outside the try)."
  },
  {
   "property": "C20",
   "status": "partial",
   "theorems": [
    "Verif.Config.C20_refused_partial",
    "Verif.Config.C20_refuted",
    "Verif.Config.C20_exact"
   ],
   "note": "Exact for arguments of every form (C20_exact): arguments that set refuses leave the state as it was; an observer that cannot bear the new configuration makes the entry raise and the temporary configuration stays in force (refuted)."
  },
  {
   "property": "C21",
   "status": "proved",
   "theorems": [
    "Verif.Config.C21_one",
    "Verif.Config.C21_all",
    "Verif.Config.C21_unknown"
   ],
   "note": ""
  },
  {
   "property": "C22",
   "status": "partial",
   "theorems": [
    "Verif.Config.C22_restart_partial",
    "Verif.Config.C22_refuted",
    "Verif.Config.C22_written"
   ],
   "note": "Proved for values yaml's SafeLoader reads back; refuted otherwise (one such value loses the whole configuration on reload). yaml syntax idealised."
  },
  {
   "property": "C23",
   "status": "proved",
   "theorems": [
    "Verif.Config.C23_set_reset",
    "Verif.Config.C23_temporary"
   ],
   "note": ""
  },
  {
   "property": "C24",
   "status": "proved",
   "theorems": [
    "Verif.Config.C24_reads_succeed",
    "Verif.Config.C24_policies"
   ],
   "note": ""
  },
  {
   "property": "C25",
   "status": "partial",
   "theorems": [
    "Verif.Config.C25_exact",
    "Verif.Config.C25_refuted",
    "Verif.Config.C25_text_refuted",
    "Verif.Config.C25_variable_refuted",
    "Verif.Config.C25_values_partial"
   ],
   "note": "Refuted: every non-empty text, also 'False' and 'off', turns a flag on, and environment booleans stay text (true iff non-empty). Partial: every non-text value. Exact: a flag counts as off iff its variable is the empty text, or there is none and the value set is false in python (C25_exact)."
  },
  {
   "property": "C26",
   "status": "proved",
   "theorems": [
    "Verif.Humanize.C26_bytes",
    "Verif.Humanize.C26_seconds",
    "Verif.Humanize.C26_percent",
    "Verif.Humanize.C26_unambiguous",
    "Verif.Humanize.C26_none",
    "Verif.Humanize.C26_plain_number"
   ],
   "note": "Regular expression matched with backtracking; unicode classes are parameters with laws; `$` before a final newline included. Non-decimal texts of non-string values are what str() gives."
  },
  {
   "property": "C27",
   "status": "partial",
   "theorems": [
    "Verif.Humanize.C27_doubles_exact",
    "Verif.Humanize.C27_doubles_whole",
    "Verif.Humanize.C27_doubles_negative",
    "Verif.Humanize.C27_doubles_partial",
    "Verif.Humanize.C27_doubles_refuted",
    "Verif.Humanize.C27_doubles_raises",
    "Verif.Humanize.C27_bytes_partial",
    "Verif.Humanize.C27_unit_unique",
    "Verif.Humanize.C27_whole_sizes_read_back",
    "Verif.Humanize.C27_negative_refuted",
    "Verif.Humanize.C27_huge_refuted"
   ],
   "note": "In exact arithmetic for 0 <= n < 1024^9; in IEEE doubles (bytesF) the same text below 1024^5, for negatives above -2^48 and for whole numbers of a unit, and for every size the unit and the tenths up to 2^-37 tenths; raises exactly from 2^90 - 2^36. Refuted for negative sizes (double sign), for huge ones (IndexError) and, in doubles, for the nearest tenth (one byte less than 1.25 EiB is shown as 1.3 EiB)."
  },
  {
   "property": "C28",
   "status": "proved",
   "theorems": [
    "Verif.Humanize.C28_distance_is_least",
    "Verif.Humanize.C28_suggestion_is_closest",
    "Verif.Humanize.C28_ties",
    "Verif.Humanize.C28_order_irrelevant"
   ],
   "note": "Table filling loop proved to compute the least number of single-character edits; ties go to the first word in the order of texts, so the order of the vocabulary does not matter."
  },
  {
   "property": "C29",
   "status": "proved",
   "theorems": [
    "Verif.Humanize.C29_enumeration"
   ],
   "note": ""
  },
  {
   "property": "C30",
   "status": "proved",
   "theorems": [
    "Verif.GridSpec.C30_inferred_iff",
    "Verif.GridSpec.C30_unambiguous",
    "Verif.GridSpec.C30_order_irrelevant",
    "Verif.GridSpec.C30_unsupported_refused"
   ],
   "note": "Names are matched at the start only, as in the code (N32abc is accepted); the specification says so."
  },
  {
   "property": "C31",
   "status": "proved",
   "theorems": [
    "Verif.GridSpec.C31_idempotent",
    "Verif.GridSpec.C31_tuple_is_list",
    "Verif.GridSpec.C31_caller_dict_unchanged"
   ],
   "note": "Caller's dict: heap model of the dict objects, including runs that raise."
  },
  {
   "property": "C32",
   "status": "proved",
   "theorems": [
    "Verif.GridSpec.C32_self_match"
   ],
   "note": "Well formed: numeric grid and area, HEALPix number in range with a valid order. For every iteration order of the set of compared keys."
  },
  {
   "property": "C33",
   "status": "partial",
   "theorems": [
    "Verif.GridSpec.C33_named_grids_partial",
    "Verif.GridSpec.C33_latlon_partial",
    "Verif.GridSpec.C33_latlon_exact",
    "Verif.GridSpec.C33_refuted"
   ],
   "note": "Refuted (relative tolerance measured on the right operand only); proved for named grids and for increments within 1e-6; exact condition for a lat-lon match to be turned round."
  },
  {
   "property": "C34",
   "status": "partial",
   "theorems": [
    "Verif.GridSpec.C34_matching",
    "Verif.GridSpec.C34_same_spec_partial",
    "Verif.GridSpec.C34_partial",
    "Verif.GridSpec.C34_orca_refuted",
    "Verif.Index.C34_lookup_partial"
   ],
   "note": "Proved for reduced Gaussian and HEALPix names and for every name with an explicit type; refuted for the inference of ORCA names. The inventory lookup is covered with C39."
  },
  {
   "property": "C35",
   "status": "partial",
   "theorems": [
    "Verif.GridSpec.C35_doubles",
    "Verif.GridSpec.C35_doubles_close",
    "Verif.GridSpec.C35_doubles_refuted",
    "Verif.GridSpec.C35_normalise",
    "Verif.GridSpec.C35_shift_partial",
    "Verif.GridSpec.C35_global_shift",
    "Verif.GridSpec.C35_seam_refuted"
   ],
   "note": "Normalisation proved; invariance proved away from the 0/360 seam, refuted at the seam. In IEEE doubles (LonDouble.lean) the loops end below 2^56 degrees with the exact representative rounded once, and never from 2^63 on (C35_doubles_refuted)."
  },
  {
   "property": "C36",
   "status": "proved",
   "theorems": [
    "Verif.GridSpec.C36_short_is_global",
    "Verif.GridSpec.C36_short_matches_full",
    "Verif.GridSpec.C36_resolutions_apart"
   ],
   "note": "The table is the whole range of the quantifier; its entries are checked against a formula by kernel evaluation, everything else by proof."
  },
  {
   "property": "C37",
   "status": "proved",
   "theorems": [
    "Verif.GridSpec.C37_orderings_apart",
    "Verif.GridSpec.C37_other_order_refused",
    "Verif.GridSpec.C37_same_ordering_matches",
    "Verif.GridSpec.C37_decided"
   ],
   "note": ""
  },
  {
   "property": "C38",
   "status": "proved",
   "theorems": [
    "Verif.GridSpec.C38_types",
    "Verif.GridSpec.C38_flags",
    "Verif.GridSpec.C38_names",
    "Verif.GridSpec.C38_increments",
    "Verif.GridSpec.C38_shapes"
   ],
   "note": ""
  },
  {
   "property": "C39",
   "status": "proved",
   "theorems": [
    "Verif.Index.C39_first_match",
    "Verif.Index.C39_none",
    "Verif.Index.C39_complete",
    "Verif.Index.C39_unsupported_request",
    "Verif.Index.C39_request_form"
   ],
   "note": "Every inventory and request; the conditions under which the code raises are stated separately."
  },
  {
   "property": "C40",
   "status": "proved",
   "theorems": [
    "Verif.Index.C40_version",
    "Verif.Index.C40_kept",
    "Verif.Index.C40_alone"
   ],
   "note": ""
  },
  {
   "property": "C41",
   "status": "proved",
   "theorems": [
    "Verif.Index.C41_alias",
    "Verif.Index.C41_only_those"
   ],
   "note": "In every state of a session, including effects on it."
  },
  {
   "property": "C42",
   "status": "partial",
   "theorems": [
    "Verif.Index.C42_only_original",
    "Verif.Index.C42_reloads",
    "Verif.Index.C42_same_answer_partial",
    "Verif.Index.C42_some_answer",
    "Verif.Index.C42_missing",
    "Verif.Index.C42_refuted",
    "Verif.Index.C42_exact",
    "Verif.Index.C42_early_partial",
    "Verif.Index.C42_ordered_partial"
   ],
   "note": "Written index reloads, only original entries, every listed filter answered: proved. Refuted when several entries match one filter; partial: same answer when one entry matches. Which entry of the subset answers a request is characterised exactly (C42_exact): the one the original gives to the first listed filter whose entry answers it; a filter keeps its entry if no filter before it brings in one that answers (C42_early_partial); all filters keep their entries when they are listed in the order of the original (C42_ordered_partial)."
  },
  {
   "property": "C43",
   "status": "proved",
   "theorems": [
    "Verif.Index.C43_hit",
    "Verif.Index.C43_after_check",
    "Verif.Index.C43_rest_of_session",
    "Verif.Index.C43_bound",
    "Verif.Index.C43_off_every_miss",
    "Verif.Index.C43_refreshed"
   ],
   "note": "Every history of lookups, publications, evictions, network and policy changes; with policy 'off' every miss downloads (C43_off_every_miss), which is outside the property."
  },
  {
   "property": "C44",
   "status": "proved",
   "theorems": [
    "Verif.Index.C44_file",
    "Verif.Index.C44_loaded",
    "Verif.Index.C44_first_miss",
    "Verif.Index.C44_no_download",
    "Verif.Index.C44_coherent",
    "Verif.Index.C44_own_files"
   ],
   "note": "Checksum idealised: no collision between the two texts compared; coherence of cache entries with their checksum is proved as an invariant of sessions."
  },
  {
   "property": "C45",
   "status": "proved",
   "theorems": [
    "Verif.Index.C45_found",
    "Verif.Index.C45_current",
    "Verif.Index.C45_reads_only",
    "Verif.Index.C45_answer"
   ],
   "note": "Every state of the session. That no network is used holds by construction: the local accessor (db.py:69-90) is modelled without any network to use."
  },
  {
   "property": "C46",
   "status": "proved",
   "theorems": [
    "Verif.Regrid.C46_product",
    "Verif.Regrid.C46_all_elements",
    "Verif.Regrid.C46_linear",
    "Verif.Regrid.C46_local",
    "Verif.Regrid.C46_copy",
    "Verif.Regrid.C46_constant",
    "Verif.Regrid.C46_range"
   ],
   "note": "Any commutative ring (range: ordered field); rounding and NaN: C121, C122."
  },
  {
   "property": "C47",
   "status": "proved",
   "theorems": [
    "Verif.Regrid.C47_refused",
    "Verif.Regrid.C47_value_error"
   ],
   "note": ""
  },
  {
   "property": "C48",
   "status": "proved",
   "theorems": [
    "Verif.Regrid.C48_fields",
    "Verif.Regrid.C48_length",
    "Verif.Regrid.C48_fails",
    "Verif.Regrid.C48_target_refused",
    "Verif.Regrid.C48_array_content",
    "Verif.Regrid.C48_precomputed"
   ],
   "note": "Backends whose answers do not depend on their state (shown of the precomputed backend). C48_fields and C48_fails are for lists that are not empty; with an empty list there is no field to compare with."
  },
  {
   "property": "C49",
   "status": "proved",
   "theorems": [
    "Verif.Regrid.C49_routed",
    "Verif.Regrid.C49_unsupported",
    "Verif.Regrid.C49_only_one",
    "Verif.Regrid.C49_interpolate"
   ],
   "note": "Modules loaded or not, and any class membership."
  },
  {
   "property": "C50",
   "status": "proved",
   "theorems": [
    "Verif.Regrid.C50_same_object",
    "Verif.Regrid.C50_different_objects",
    "Verif.Regrid.C50_right_inventory",
    "Verif.Regrid.C50_unhashable",
    "Verif.Regrid.C50_unknown",
    "Verif.Regrid.C50_failure_registers_nothing"
   ],
   "note": "Every history of calls of get_backend; directory layout of inventories as in the code."
  },
  {
   "property": "C51",
   "status": "partial",
   "theorems": [
    "Verif.Regrid.C51_grib",
    "Verif.Regrid.C51_caller_unchanged",
    "Verif.Regrid.C51_refused_iff",
    "Verif.Regrid.C51_array_partial",
    "Verif.Regrid.C51_refuted"
   ],
   "note": "Refuted for arrays: four options never reach the MIR job. Proved for GRIB messages and field lists; the caller's dict is unchanged on both paths."
  },
  {
   "property": "C52",
   "status": "partial",
   "theorems": [
    "Verif.Mir.C52_exact",
    "Verif.Mir.C52_cut_refuted",
    "Verif.Mir.C52_written",
    "Verif.Mir.C52_refused",
    "Verif.Mir.C52_round_trip_partial",
    "Verif.Mir.C52_other_tag",
    "Verif.Mir.C52_refuted",
    "Verif.Mir.C52_wide_refuted"
   ],
   "note": "Doubles and long longs refuted; objects are C106. C52_exact: on every byte string, what each reader returns and where it stops; in particular a string or character cut by the end of the stream is returned as it is (C52_cut_refuted)."
  },
  {
   "property": "C53",
   "status": "proved",
   "theorems": [
    "Verif.Mir.C53_decodes"
   ],
   "note": "Layout taken from mir.py; weights are bit patterns; scipy's constructor modelled by its checks."
  },
  {
   "property": "C54",
   "status": "proved",
   "theorems": [
    "Verif.Mir.C54_truncated"
   ],
   "note": "Every proper prefix of every well-formed file."
  },
  {
   "property": "C55",
   "status": "proved",
   "theorems": [
    "Verif.Mir.C55_exact",
    "Verif.Mir.C55_refused",
    "Verif.Mir.C55_faithful"
   ],
   "note": "Coordinates as bit patterns of floats."
  },
  {
   "property": "C56",
   "status": "partial",
   "theorems": [
    "Verif.Mir.C56_lists_partial",
    "Verif.Mir.C56_refuted",
    "Verif.Mir.C56_wrong_points_refuted",
    "Verif.Mir.C56_short_refuted"
   ],
   "note": "Python lists proved. Numpy arrays refuted: more than 1000 elements print by their edges, and shorter ones with eight digits after the point (that rule, for numbers from 1 to 2, is a hypothesis of C56_short_refuted). md5 idealised."
  },
  {
   "property": "C57",
   "status": "partial",
   "theorems": [
    "Verif.DiskCache.Create.C57_complete_partial",
    "Verif.DiskCache.Create.C57_exclusive_partial",
    "Verif.DiskCache.Create.C57_refuted"
   ],
   "note": "Proved for every number of processes, interleaving and crash point as long as no file is removed or regenerated while a creation is in progress (Calm); refuted in general: the lock file is unlinked after release, so a third process can lock a new lock file while another still holds the old one, and both write the same .tmp file."
  },
  {
   "property": "C58",
   "status": "partial",
   "theorems": [
    "Verif.DiskCache.Create.C58_recovers_partial",
    "Verif.DiskCache.Create.C58_refuted"
   ],
   "note": "Complete file: proved for every number of crashes. Registered with its size: refuted, a crash between rename and update of the table leaves a row without size until the next housekeeping; when that housekeeping takes place: C169."
  },
  {
   "property": "C59",
   "status": "partial",
   "theorems": [
    "Verif.Json.C59_same_file_iff_same_request",
    "Verif.Json.C59_bare_number_arguments_refuted"
   ],
   "note": "Proved for list-like or dict arguments (the documented kind) and owners without a dash; refuted for bare-number arguments because the hashed texts are concatenated without separator."
  },
  {
   "property": "C60",
   "status": "partial",
   "theorems": [
    "Verif.DiskCache.C60_spares",
    "Verif.DiskCache.C60_protected",
    "Verif.DiskCache.C60_in_progress",
    "Verif.DiskCache.C60_refuted"
   ],
   "note": "Proved for the trimming itself from any table, and for check_size while a download is in progress; refuted for check_size: housekeeping first adopts stray files as brand-new entries, so the most recent real entry loses its protection."
  },
  {
   "property": "C61",
   "status": "partial",
   "theorems": [
    "Verif.DiskCache.C61_reaches_partial",
    "Verif.DiskCache.C61_refuted",
    "Verif.DiskCache.C61_overshoot",
    "Verif.DiskCache.C61_again"
   ],
   "note": "Proved when housekeeping finds nothing new; refuted otherwise, because the amount to free is computed before housekeeping records sizes. The excess is bounded by what housekeeping newly counts, and a second call reaches the limit."
  },
  {
   "property": "C62",
   "status": "partial",
   "theorems": [
    "Verif.DiskCache.C62_order",
    "Verif.DiskCache.C62_stops",
    "Verif.DiskCache.C62_access",
    "Verif.DiskCache.C62_least_recent_partial",
    "Verif.DiskCache.C62_least_recent_refuted"
   ],
   "note": "Order and stopping point; the recorded last access is the last request, over every history. Refuted for files that were adopted as orphans: they stay orphans when asked for and go first."
  },
  {
   "property": "C63",
   "status": "partial",
   "theorems": [
    "Verif.DiskCache.C63_late",
    "Verif.DiskCache.C63_size",
    "Verif.DiskCache.C63_left",
    "Verif.DiskCache.C63_no_entries_partial",
    "Verif.DiskCache.C63_refuted",
    "Verif.DiskCache.C63_matcher"
   ],
   "note": "Size 0, the matcher case, and that whatever is left after purge() is empty (C63_left): proved; refuted: entries of size 0 survive purge() – all of them when no entry has bytes, otherwise only ones that come after those with bytes in the order of deletion (C63_late), because the loop stops once the bytes are freed."
  },
  {
   "property": "C64",
   "status": "proved",
   "theorems": [
    "Verif.DiskCache.C64_unique",
    "Verif.DiskCache.C64_accesses",
    "Verif.DiskCache.C64_size"
   ],
   "note": "By induction over histories of manager operations."
  },
  {
   "property": "C65",
   "status": "partial",
   "theorems": [
    "Verif.DiskCache.C65_prefix_partial",
    "Verif.DiskCache.C65_within_partial",
    "Verif.DiskCache.C65_refuted"
   ],
   "note": "Proved for the textual prefix test, and for paths that are really inside when all requested paths are; refuted: the test is on text, /cx/f and /c/../f count as inside /c."
  },
  {
   "property": "C66",
   "status": "partial",
   "theorems": [
    "Verif.DiskCache.Queue.C66_in_order_partial",
    "Verif.DiskCache.Queue.C66_served_partial",
    "Verif.DiskCache.Queue.C66_refuted",
    "Verif.DiskCache.Queue.C66_exact",
    "Verif.DiskCache.Queue.C66_never"
   ],
   "note": "Proved for requests that return or raise Exception, for any number of callers and schedules; refuted for BaseException (sys.exit() in a purge matcher ends the manager thread, every caller waits for ever). `C66_exact`, `C66_never`: for all requests, up to the first that ends the thread; that one and the later ones are never answered."
  },
  {
   "property": "C67",
   "status": "proved",
   "theorems": [
    "Verif.DiskCache.Policy.C67_policy_follows"
   ],
   "note": "Every history of changes, uses and failures, one thread; the configuration is any function that may raise."
  },
  {
   "property": "C68",
   "status": "partial",
   "theorems": [
    "Verif.DiskCache.Policy.C68_ignored",
    "Verif.DiskCache.Policy.C68_refuted",
    "Verif.DiskCache.Policy.C68_default_partial"
   ],
   "note": "False: the option is not among the values a policy remembers; C68_ignored shows it for every configuration and history."
  },
  {
   "property": "C69",
   "status": "partial",
   "theorems": [
    "Verif.DiskCache.Locks.C69_no_deadlock_partial",
    "Verif.DiskCache.Locks.C69_finishes_partial",
    "Verif.DiskCache.Locks.C69_refuted"
   ],
   "note": "Proved for every number of threads and processes and every schedule (no deadlock; with finitely many threads all of them finish) when manager requests run no user code; refuted for purge(matcher) whose matcher calls the cache."
  },
  {
   "property": "C70",
   "status": "partial",
   "theorems": [
    "Verif.DiskCache.Download.C70_reused_partial",
    "Verif.DiskCache.Download.C70_replaced_only_if",
    "Verif.DiskCache.Download.C70_path_partial",
    "Verif.DiskCache.Download.C70_forced",
    "Verif.DiskCache.Download.C70_refuted",
    "Verif.DiskCache.Download.C70_zero_refuted"
   ],
   "note": "multiurl's Downloader is a parameter. Replacement only on a changed server copy with re-download enabled: proved in full. Reuse without contact: proved for option False and URLs with extension; refuted for other falsy values, URLs without extension, and file: URLs (None is returned)."
  },
  {
   "property": "C71",
   "status": "partial",
   "theorems": [
    "Verif.Builder.C71_entry_partial",
    "Verif.Builder.C71_refuted",
    "Verif.Builder.C71_attribute_refuted",
    "Verif.Builder.C71_failed",
    "Verif.Builder.C71_others",
    "Verif.Builder.C71_found_partial",
    "Verif.Builder.C71_others_files_partial",
    "Verif.Builder.C71_short_partial"
   ],
   "note": "As written every call raises AttributeError before anything is recorded (the path is a str): refuted. Proved in full for the program in which the path is handed over as a Path: one entry, all others and their files kept, found by lookups (also by the short gridspec of a listed resolution), file where lookups read it. Digests are parameters; a crash in the middle of json.dump: C151."
  },
  {
   "property": "C72",
   "status": "proved",
   "theorems": [
    "Verif.Builder.C72_union",
    "Verif.Builder.C72_alone",
    "Verif.Builder.C72_lookup",
    "Verif.Builder.C72_dry"
   ],
   "note": "Success iff no common name (names within one JSON file are distinct); then the union in order. Asserts are taken to be enabled (python without -O)."
  },
  {
   "property": "C73",
   "status": "partial",
   "theorems": [
    "Verif.Xarray.C73_refuted",
    "Verif.Xarray.C73_sheared_refuted",
    "Verif.Xarray.C73_tensor_partial",
    "Verif.Xarray.C73_single",
    "Verif.Xarray.C73_latitudes_partial",
    "Verif.Xarray.C73_longitudes_partial"
   ],
   "note": "Refuted: rows with equal steps in latitude pass as rows of one latitude (sheared grids). Holds, up to 1e-8 per point, for rows whose first two points agree; true meshes get exactly their latitudes and longitudes; single rows or columns never do."
  },
  {
   "property": "C74",
   "status": "partial",
   "theorems": [
    "Verif.Xarray.C74_slices",
    "Verif.Xarray.C74_failing_slice",
    "Verif.Xarray.C74_coordinates",
    "Verif.Xarray.C74_array_partial",
    "Verif.Xarray.C74_curvilinear_refuted",
    "Verif.Xarray.C74_out_dims_refuted",
    "Verif.Xarray.C74_returned",
    "Verif.Xarray.C74_dataset",
    "Verif.Xarray.C74_dataset_coordinates_partial",
    "Verif.Xarray.C74_dataset_refuted"
   ],
   "note": "Order and sizes of other dimensions, independence of slices, sizes of coordinates: proved for every returned array. Refuted on curvilinear targets (data arrays always raise, datasets get coordinates along dimensions no variable has) and with out_dims. On point lists and meshes data arrays are always returned."
  },
  {
   "property": "C75",
   "status": "proved",
   "theorems": [
    "Verif.MemCache.C75_follows_last_configuration"
   ],
   "note": ""
  },
  {
   "property": "C76",
   "status": "partial",
   "theorems": [
    "Verif.GridSpec.C76_latlon_partial",
    "Verif.GridSpec.C76_reduced_partial",
    "Verif.GridSpec.C76_latitudes_ignored",
    "Verif.GridSpec.C76_refuted"
   ],
   "note": "Proved for lat-lon. For reduced Gaussian grids the latitudes are compared unless both go all the way round (C76_reduced_partial), and then never (C76_latitudes_ignored); so the full claim is refuted: a band of latitudes matches the global grid."
  },
  {
   "property": "C77",
   "status": "proved",
   "theorems": [
    "Verif.Config.C77_any_values",
    "Verif.Config.C77_unreadable",
    "Verif.Config.C77_new_file_wins",
    "Verif.Config.C77_migrated"
   ],
   "note": "Every content: values in force as they stand (C77_any_values), which for values their rules accept is what the rule says (C77_migrated); files yaml cannot read give the defaults; an existing new file wins. An environment variable overrides as in C17."
  },
  {
   "property": "C78",
   "status": "partial",
   "theorems": [
    "Verif.Config.C78_complete_partial",
    "Verif.Config.C78_moment_partial",
    "Verif.Config.C78_refuted"
   ],
   "note": "Refuted: the file is truncated and written in place. Proved: after any number of whole entries an option reads as saved if its entry is written and as its default if not (C78_moment_partial); a complete file reads as the saved configuration. Entries cut in the middle: C150."
  },
  {
   "property": "C79",
   "status": "partial",
   "theorems": [
    "Verif.GridSpec.C79_closes_partial",
    "Verif.GridSpec.C79_refuted",
    "Verif.GridSpec.C79_doubles",
    "Verif.GridSpec.C79_doubles_agree",
    "Verif.GridSpec.C79_computed",
    "Verif.GridSpec.C79_increment"
   ],
   "note": "False where west and east are the same meridian: such a strip counts as global (C79_refuted). C79_computed is the exact answer, C79_closes_partial the claim for distinct meridians. Exact arithmetic; increments of reduced Gaussian grids included. In IEEE doubles (C79_doubles) the answer is the exact one unless the difference is within 2^-40 degrees of the tolerance, for longitudes below 2^56 degrees."
  },
  {
   "property": "C80",
   "status": "proved",
   "theorems": [
    "Verif.Index.C80_path",
    "Verif.Index.C80_apart"
   ],
   "note": ""
  },
  {
   "property": "C81",
   "status": "partial",
   "theorems": [
    "Verif.Index.C81_checksum_partial",
    "Verif.Index.C81_first_download_partial",
    "Verif.Index.C81_refuted",
    "Verif.Index.C81_exact"
   ],
   "note": "Refuted: checksum fetched, index download fails: the session never looks again. C81_exact: for every session state in which a lookup of two valid grids fails on the network, the repeated lookup gives what it would have given, except exactly in the states `checked` (after a reload that failed half way) and `StaleKnown`, where it finds nothing whatever is published."
  },
  {
   "property": "C82",
   "status": "proved",
   "theorems": [
    "Verif.Regrid.C82_history_irrelevant",
    "Verif.Regrid.C82_values",
    "Verif.Regrid.C82_succeeds",
    "Verif.Regrid.C82_shape"
   ],
   "note": "Unchanging inventory, one thread; float texts injective, digest without collisions; grid descriptions hold scalars or flat sequences."
  },
  {
   "property": "C83",
   "status": "proved",
   "theorems": [
    "Verif.Regrid.C83_array",
    "Verif.Regrid.C83_fields",
    "Verif.Regrid.C83_no_target"
   ],
   "note": "Extra keyword arguments raise on both paths and are left out."
  },
  {
   "property": "C84",
   "status": "partial",
   "theorems": [
    "Verif.Mir.C84_exact",
    "Verif.Mir.C84_structure_partial",
    "Verif.Mir.C84_refuted"
   ],
   "note": "Column range and monotone row pointers refuted. `C84_exact`: exactly which byte strings are read, and as what."
  },
  {
   "property": "C85",
   "status": "partial",
   "theorems": [
    "Verif.Mir.C85_content_partial",
    "Verif.Mir.C85_exceptions_partial",
    "Verif.Mir.C85_unchecked_refuted",
    "Verif.Mir.C85_refuted"
   ],
   "note": "Proved for calls with lists, whatever earlier calls raised (C85_exceptions_partial): a call with floats returns its points. Refuted after a process was killed while writing, and for the coordinates a call raised on: they are taken the second time."
  },
  {
   "property": "C86",
   "status": "partial",
   "theorems": [
    "Verif.Mir.C86_path_partial",
    "Verif.Mir.C86_truncated",
    "Verif.Mir.C86_exact",
    "Verif.Mir.C86_str_refuted",
    "Verif.Mir.C86_none_refuted",
    "Verif.Mir.C86_arguments"
   ],
   "note": "Path outputs proved; refuted for string outputs and without output. MIR is a parameter."
  },
  {
   "property": "C87",
   "status": "partial",
   "theorems": [
    "Verif.DiskCache.C87_summary_partial",
    "Verif.DiskCache.C87_unfinished_refuted",
    "Verif.DiskCache.C87_refuted"
   ],
   "note": "Exact: returned iff all entries are finished; refuted with an entry in progress (TypeError)."
  },
  {
   "property": "C88",
   "status": "proved",
   "theorems": [
    "Verif.DiskCache.Create.C88_once",
    "Verif.DiskCache.Create.C88_created_once"
   ],
   "note": ""
  },
  {
   "property": "C89",
   "status": "partial",
   "theorems": [
    "Verif.DiskCache.Policy.C89_refuted",
    "Verif.DiskCache.Policy.C89_temporary_partial",
    "Verif.DiskCache.Policy.C89_always_refuted"
   ],
   "note": "False: TmpCachePolicy.__init__ runs UserCachePolicy.__init__: afterwards the user's directory always exists, and where it cannot be made there is no temporary cache (C89_always_refuted, every configuration and file system). Holds when that directory exists."
  },
  {
   "property": "C90",
   "status": "partial",
   "theorems": [
    "Verif.DiskCache.Policy.C90_refuted",
    "Verif.DiskCache.Policy.C90_directory_kept_partial",
    "Verif.DiskCache.Policy.C90_exact"
   ],
   "note": "Exact (C90_exact): the directory is kept unless policy is off and temporary-directory-root is set; there every change gives a new directory."
  },
  {
   "property": "C91",
   "status": "partial",
   "theorems": [
    "Verif.DiskCache.Policy.C91_manager_in_step_partial",
    "Verif.DiskCache.Policy.C91_refuted",
    "Verif.DiskCache.Policy.C91_exact"
   ],
   "note": "Proved while the options can be read, whatever exceptions the manager raised; refuted when reading an option fails half way through CachePolicy.update. `C91_exact`: after a change of the configuration that returned, the manager is in step iff it was before or an option of the cache reads differently from what the policy remembers."
  },
  {
   "property": "C92",
   "status": "partial",
   "theorems": [
    "Verif.DiskCache.Download.C92_kept_partial",
    "Verif.DiskCache.Download.C92_exact",
    "Verif.DiskCache.Download.C92_refuted"
   ],
   "note": "Exact (C92_exact): a failed call keeps the cached copy iff no new version was called for; refuted otherwise: the old file is deleted first."
  },
  {
   "property": "C93",
   "status": "partial",
   "theorems": [
    "Verif.Builder.C93_refuted",
    "Verif.Builder.C93_unreadable_partial",
    "Verif.Builder.C93_exact"
   ],
   "note": "Refuted: the check comes after the file is written. Exact: a failed merge left the file alone iff an input has no entries to read."
  },
  {
   "property": "C94",
   "status": "partial",
   "theorems": [
    "Verif.Builder.C94_refuted",
    "Verif.Builder.C94_alone_partial",
    "Verif.Builder.C94_exact"
   ],
   "note": "Refuted: merge never looks at the version. Holds without a system inventory. Exactly (C94_exact): versions never decide whether a merge succeeds, and the result loads iff the system's inventory (the input, if there is none) is of the supported version."
  },
  {
   "property": "C95",
   "status": "partial",
   "theorems": [
    "Verif.Xarray.C95_refuted",
    "Verif.Xarray.C95_used_partial",
    "Verif.Xarray.C95_else_partial",
    "Verif.Xarray.C95_both_refuted",
    "Verif.Xarray.C95_given_partial"
   ],
   "note": "Refuted: an attribute gridspec wins, the argument is passed on as an interpolation option; with precomputed weights every such call raises. Holds without the attribute."
  },
  {
   "property": "C96",
   "status": "partial",
   "theorems": [
    "Verif.Race.C96_found",
    "Verif.Race.C96_locked_partial",
    "Verif.Race.C96_warm_partial",
    "Verif.Race.C96_ends",
    "Verif.Race.C96_refuted",
    "Verif.Race.C96_iteration_refuted",
    "Verif.Race.C96_missing_refuted"
   ],
   "note": "Proved for policies with a cache (lookups run under its lock), for loaded indexes without lookups of missing weights, and that found entries are right and lookups end. Refuted for policy off: the index is filled after it is published to other threads."
  },
  {
   "property": "C97",
   "status": "proved",
   "theorems": [
    "Verif.Remote.C97_values",
    "Verif.Remote.C97_missing"
   ],
   "note": "One inventory, one thread; load_npz and multiurl's Downloader are parameters; the digest has no collisions on the keys used. The published index and weights need not be of the same time. Weights are reported missing only if the lookup found no entry."
  },
  {
   "property": "C98",
   "status": "partial",
   "theorems": [
    "Verif.Remote.C98_first_use_partial",
    "Verif.Remote.C98_old_weights",
    "Verif.Remote.C98_checked_partial",
    "Verif.Remote.Demo.C98_refuted",
    "Verif.Remote.C98_try_again_partial"
   ],
   "note": "Refuted: weights republished under the same path are not fetched again with default settings. Holds on first use and, at any time, with the in-memory cache off and URLs checked (or the disk cache off). Old weights stay as long as newer versions are not wanted, checks or not. After failed downloads the request is served once they work."
  },
  {
   "property": "C99",
   "status": "partial",
   "theorems": [
    "Verif.Index.C99_plain_partial",
    "Verif.Index.C99_exact",
    "Verif.Index.C99_refuted"
   ],
   "note": "Refuted: entries match by the name of the method only, options are ignored. Exact (C99_exact): weights with options are found iff such an entry comes first among those for the grids and the name. Holds for an index without options for that method (what building records for options is in C71_entry_partial)."
  },
  {
   "property": "C100",
   "status": "proved",
   "theorems": [
    "Verif.Process.C100_change",
    "Verif.Process.C100_temporary",
    "Verif.Process.C100_kept",
    "Verif.Process.C100_below_limit",
    "Verif.Process.C100_import",
    "Verif.Process.C100_half_refuted"
   ],
   "note": "A dict refused half way is not such a return; C100_half_refuted shows that it leaves the caches behind config.get. The bound on what is held needs that the in-memory cache never refused a change."
  },
  {
   "property": "C101",
   "status": "partial",
   "theorems": [
    "Verif.Process.C101_starts_again_partial",
    "Verif.Process.C101_exact",
    "Verif.Process.C101_refuted",
    "Verif.Process.C101_success_refuted"
   ],
   "note": "Refuted: an acceptable size of None or 0 is saved before the in-memory cache refuses it, and then import raises, also after later changes that return. Exact (C101_exact): the next import works iff the configuration is Startable (size readable, policy known, positive size for a policy with a limit); for first starts without a configuration file. C101_starts_again_partial: that is so while the in-memory cache never refused a change."
  },
  {
   "property": "C102",
   "status": "proved",
   "theorems": [
    "Verif.Config.Threads.C102_restored"
   ],
   "note": ""
  },
  {
   "property": "C103",
   "status": "partial",
   "theorems": [
    "Verif.Config.Threads.C103_readers_partial",
    "Verif.Config.Threads.C103_refuted",
    "Verif.Config.Threads.C103_lost_refuted",
    "Verif.Config.Threads.C103_program_partial"
   ],
   "note": "Refuted both ways: the stack of temporary configurations is shared by all threads. Partial: while the other threads only read, a thread that runs a program (calls, nested blocks, exceptions raised and caught) reads what that program reads when it is alone in its process."
  },
  {
   "property": "C104",
   "status": "partial",
   "theorems": [
    "Verif.Docs.C104_listed_partial",
    "Verif.Docs.C104_layout",
    "Verif.Docs.C104_healpix_refuted",
    "Verif.Docs.C104_made_partial",
    "Verif.Docs.C104_ring_refuted",
    "Verif.Docs.C104_options_refuted",
    "Verif.Docs.C104_made_refuted"
   ],
   "note": "Proved for the pages of regular_ll, reduced_gg, reduced_gg_o and orca and for methods given as the text linear; refuted: both HEALPix pages are empty for every index, methods given as a dict are not listed, a target such as {\"grid\": \"H8\"} without ordering makes the page raise."
  },
  {
   "property": "C105",
   "status": "partial",
   "theorems": [
    "Verif.Docs.C105_usable_partial",
    "Verif.Docs.C105_area_refuted",
    "Verif.Docs.C105_ordering_refuted"
   ],
   "note": "Proved for descriptions of the published form; refuted for sub-area sources (shown without the area) and for lowercase nested HEALPix (shown without the ordering)."
  },
  {
   "property": "C106",
   "status": "partial",
   "theorems": [
    "Verif.Mir.C106_written",
    "Verif.Mir.C106_first_partial",
    "Verif.Mir.C106_second_refuted",
    "Verif.Mir.C106_end_refuted",
    "Verif.Mir.C106_kind_refuted"
   ],
   "note": "Proved: what is written, and that the first object is read back on a stream with recv and read. Refuted: the second object, the end of the stream, and every file."
  },
  {
   "property": "C107",
   "status": "partial",
   "theorems": [
    "Verif.Index.SubsetDisk.C107_complete",
    "Verif.Index.SubsetDisk.C107_index_file",
    "Verif.Index.SubsetDisk.C107_dry_run",
    "Verif.Index.SubsetDisk.C107_same_weights_partial",
    "Verif.Index.SubsetDisk.C107_written",
    "Verif.Index.SubsetDisk.C107_failed",
    "Verif.Index.SubsetDisk.C107_kept_refuted",
    "Verif.Index.SubsetDisk.C107_alias_refuted",
    "Verif.Index.SubsetDisk.C107_outside_refuted",
    "Verif.Index.SubsetDisk.C107_exact",
    "Verif.Index.SubsetDisk.C107_ordered_partial"
   ],
   "note": "Proved (with the import corrected; as written the tool cannot start): the directory is complete with the weights of the original, only files below it are written, strict runs, failures; a dry run ends as the run without strict. Which entry the directory answers any request with is characterised exactly, its weights being those of the original (C107_exact); same answers for filters with one answer, and for all filters listed in the order of the original (C107_ordered_partial). Refuted: without strict an inventory in the directory loses its entries; aliases of methods in filters find nothing; an engine name beginning with a slash makes it write elsewhere."
  },
  {
   "property": "C108",
   "status": "proved",
   "theorems": [
    "Verif.Xarray.C108_values",
    "Verif.Xarray.C108_refused",
    "Verif.Xarray.C108_returned"
   ],
   "note": "Floating-point data (other types: C120). One data array (not lazy), an inventory that does not change; MIR's canonical gridspec and target geography are parameters. Curvilinear targets: see C74."
  },
  {
   "property": "C109",
   "status": "partial",
   "theorems": [
    "Verif.DiskCache.Switch.C109_place",
    "Verif.DiskCache.Switch.C109_steady_partial",
    "Verif.DiskCache.Switch.C109_delivered_partial",
    "Verif.DiskCache.Switch.C109_refuted",
    "Verif.DiskCache.Switch.C109_forced_partial",
    "Verif.DiskCache.Switch.C109_own_names"
   ],
   "note": "Refuted when the policy is replaced during the call (AssertionError before or after the download, TypeError, a file of a random name in a managed directory). For all interleavings: the returned file was there, in a directory that was active during the call; without a replacement: no AssertionError or TypeError, the right name, registered; and delivered after at most 12 own steps if nobody removes files. A forced file in a managed cache is a new one; a name of its own is nobody else's."
  },
  {
   "property": "C110",
   "status": "partial",
   "theorems": [
    "Verif.DiskCache.Use.C110_alone_partial",
    "Verif.DiskCache.Use.C110_roomy_partial",
    "Verif.DiskCache.Use.C110_index_refuted",
    "Verif.DiskCache.Use.C110_retry_refuted",
    "Verif.DiskCache.Use.C110_threads_refuted"
   ],
   "note": "Proved for one thread, any limits and schedules of the checks, in directories without stray files: a path returned by a call that made no other calls can be opened, if the file was found or was made under a new record. Proved for any number of threads while limits are not reached and nothing is forced. Refuted: the index of a remote inventory (made by a nested download whose record is newer), weights whose first download failed, weights found while another thread downloads."
  },
  {
   "property": "C111",
   "status": "partial",
   "theorems": [
    "Verif.DiskCache.Work.C111_left_alone_partial",
    "Verif.DiskCache.Work.C111_begins",
    "Verif.DiskCache.Work.C111_recorded_partial",
    "Verif.DiskCache.Work.C111_lost_refuted",
    "Verif.DiskCache.Work.C111_purge_refuted",
    "Verif.DiskCache.Work.C111_renamed_refuted"
   ],
   "note": "Proved for every history of harmless requests and file changes, from any registration of a path without a record: record and helper files stay, and the file is recorded. Refuted: a record left from a lost file (lock file and record are removed), purge() during a download, a check between renaming and recording (the call raises)."
  },
  {
   "property": "C112",
   "status": "partial",
   "theorems": [
    "Verif.Config.Boot.C112_refused_iff",
    "Verif.Config.Boot.C112_starts_partial",
    "Verif.Config.Boot.C112_values",
    "Verif.Config.Boot.C112_unreadable",
    "Verif.Config.Boot.C112_umask_partial",
    "Verif.Config.Boot.C112_other_files",
    "Verif.Config.Boot.C112_kept",
    "Verif.Config.Boot.C112_first_start_partial",
    "Verif.Config.Boot.C112_again",
    "Verif.Config.Boot.C112_numeric_key_refuted",
    "Verif.Config.Boot.C112_bare_name_refuted",
    "Verif.Config.Boot.C112_dropped_refuted",
    "Verif.Config.Boot.C112_old_lost_refuted",
    "Verif.Config.Boot.C112_same_start",
    "Verif.Config.Boot.C112_directory"
   ],
   "note": "Exact condition for import to fail (a key that is not text); values, umask, other files, second start. Refuted: a numeric key makes the import raise TypeError; a bare file name leaves umask 077 and makes no file; entries that are no options are dropped when the file is rewritten; old settings are lost when the new file cannot be written. On the disks of Model.start the two models agree."
  },
  {
   "property": "C113",
   "status": "partial",
   "theorems": [
    "Verif.Config.Show.C113_rows",
    "Verif.Config.Show.C113_env",
    "Verif.Config.Show.C113_dump_refuted",
    "Verif.Config.Show.C113_text_refuted"
   ],
   "note": "Rows of the displays proved for every program. Refuted: dump() ignores environment variables; the printed text does not tell None from the text \"None\". The texts of the displays are C153."
  },
  {
   "property": "C114",
   "status": "proved",
   "theorems": [
    "Verif.DiskCache.Policy.C114_follows",
    "Verif.DiskCache.Policy.C114_inforce",
    "Verif.DiskCache.Policy.C114_owner",
    "Verif.DiskCache.Policy.C114_reply",
    "Verif.DiskCache.Policy.C114_alone",
    "Verif.DiskCache.Policy.C114_gone",
    "Verif.DiskCache.Policy.C114_kept",
    "Verif.DiskCache.Policy.C114_same",
    "Verif.DiskCache.Policy.C114_failed",
    "Verif.DiskCache.Policy.C114_manager"
   ],
   "note": "C114_failed and C114_manager record what users may not expect: a change that fails still removes the old temporary directory, and the manager keeps the name of a directory that is gone."
  },
  {
   "property": "C115",
   "status": "partial",
   "theorems": [
    "Verif.DiskCache.C115_reports_partial",
    "Verif.DiskCache.C115_quiet_partial",
    "Verif.DiskCache.C115_within_partial",
    "Verif.DiskCache.C115_refuted"
   ],
   "note": "Holds as long as others leave the files of finished entries alone. Refuted: a file removed by hand is counted for ever, and other files are trimmed although those that exist are within the limit."
  },
  {
   "property": "C116",
   "status": "partial",
   "theorems": [
    "Verif.Config.C116_alone",
    "Verif.Config.C116_restart_partial",
    "Verif.Config.C116_moment",
    "Verif.Config.C116_silent",
    "Verif.Config.C116_refuted"
   ],
   "note": "Proved for values yaml reads back, a writable path and the same environment variables. Refuted: environment values are not in the copy, unsafe values lose every option; a pathlib.Path or an unwritable path saves nothing without an exception."
  },
  {
   "property": "C117",
   "status": "partial",
   "theorems": [
    "Verif.Builder.C117_own_partial",
    "Verif.Builder.C117_planned",
    "Verif.Builder.C117_names",
    "Verif.Builder.C117_again",
    "Verif.Builder.C117_inventory_partial",
    "Verif.Builder.C117_refuted",
    "Verif.Builder.C117_shared_refuted",
    "Verif.Builder.C117_stale_refuted"
   ],
   "note": "Holds in an empty directory for plainly written grids, with the builder given a Path as its converter expects. Refuted: as the code is every request fails (C71); descriptions of earlier builds are reused; names with '-' and 5/5, 5x5 share files."
  },
  {
   "property": "C118",
   "status": "partial",
   "theorems": [
    "Verif.DiskCache.C118_reaches_partial",
    "Verif.DiskCache.C118_quiet",
    "Verif.DiskCache.C118_refuted",
    "Verif.DiskCache.C118_zero_refuted",
    "Verif.DiskCache.C118_unset",
    "Verif.DiskCache.C118_doubles_partial",
    "Verif.DiskCache.C118_doubles_quiet",
    "Verif.DiskCache.C118_half_refuted"
   ],
   "note": "Holds in whole percents, as long as others leave the files of finished entries alone; in IEEE doubles up to half a percent and 2^-42 percents (C118_doubles_partial). Refuted: use up to half a percent above the limit is tolerated; in doubles some half percents round down; a disk reporting no size raises ZeroDivisionError."
  },
  {
   "property": "C119",
   "status": "partial",
   "theorems": [
    "Verif.Regrid.Args.C119_heeded_partial",
    "Verif.Regrid.Args.C119_unknown",
    "Verif.Regrid.Args.C119_inventory_refuted",
    "Verif.Regrid.Args.C119_options_refuted",
    "Verif.Regrid.Args.C119_empty_refuted"
   ],
   "note": "Exact: an argument is obeyed unless it is the inventory for MIR or one of four options of MIR on arrays. Refuted: inventory without backend='precomputed' is ignored (MIR is the default); empty lists take anything."
  },
  {
   "property": "C120",
   "status": "partial",
   "theorems": [
    "Verif.Xarray.C120_values_partial",
    "Verif.Xarray.C120_float",
    "Verif.Xarray.C120_same_calls",
    "Verif.Xarray.C120_refuted"
   ],
   "note": "Exact: a value is the weighted sum iff the type of the data can hold it; floats are untouched (in exact arithmetic). Refuted: output_dtypes=[da.dtype] truncates the results of integer data towards zero (the mean of 2 and 3 is 2)."
  },
  {
   "property": "C121",
   "status": "partial",
   "theorems": [
    "Verif.Regrid.C121_stored",
    "Verif.Regrid.C121_uses_partial",
    "Verif.Regrid.C121_spread",
    "Verif.Regrid.C121_infinite",
    "Verif.Regrid.C121_refuted"
   ],
   "note": "Exact: a point has influence iff a weight is stored for it, zero or not. Refuted: 0 times a missing value is missing. Holds for matrices that store no zeros. An infinite value used alone makes the point infinite with the sign of its weight; infinities of opposite signs make it missing (C121_infinite)."
  },
  {
   "property": "C122",
   "status": "proved",
   "theorems": [
    "Verif.Regrid.C122_error",
    "Verif.Regrid.C122_number",
    "Verif.Regrid.C122_sign",
    "Verif.Regrid.C122_range",
    "Verif.Regrid.C122_doubles",
    "Verif.Regrid.C122_doubles_number",
    "Verif.Regrid.C122_copy"
   ],
   "note": "Rounding is any function with the stated accuracy (IEEE doubles: u=2^-53, eta=2^-1075), applied after every operation, in the order of the stored weights. No fused multiply-add. Overflow of terms that are not negative gives plus infinity (C122_sign). IEEE doubles are such a rounding (Ieee.lean: accurate, to the nearest, ties to even), with the bound in figures; a row of a single weight 1 copies the value exactly."
  },
  {
   "property": "C123",
   "status": "partial",
   "theorems": [
    "Verif.MemCache.C123_held_partial",
    "Verif.MemCache.C123_loading_partial",
    "Verif.MemCache.C123_moment",
    "Verif.MemCache.C123_refuted"
   ],
   "note": "Proved for CSR/CSC/BSR weights, and while loading for entries that record the real size (as builder.py writes it) when it fits the limit or strict mode is on. Refuted otherwise: entries without recorded size, matrices larger than the limit, other sparse formats (counted as 0 bytes)."
  },
  {
   "property": "C124",
   "status": "partial",
   "theorems": [
    "Verif.Testing.C124_plane",
    "Verif.Testing.C124_one_row",
    "Verif.Testing.C124_plane_refuted",
    "Verif.Testing.C124_values_partial",
    "Verif.Testing.C124_nearest",
    "Verif.Testing.C124_inner_partial",
    "Verif.Testing.C124_texts_partial",
    "Verif.Testing.C124_times_partial",
    "Verif.Testing.C124_numbers",
    "Verif.Testing.C124_order_partial",
    "Verif.Testing.C124_sizes_partial",
    "Verif.Testing.C124_refuted"
   ],
   "note": "Exact conditions for every helper. Refuted: with nearest neighbour the last row is compared with the first row of the reference (within ten times its value); coordinates of numbers are compared with themselves. Two-dimensional coordinates (C124_plane, exact): with two or more rows and columns every comparison raises ValueError, also with itself (C124_plane_refuted). No infinities."
  },
  {
   "property": "C125",
   "status": "partial",
   "theorems": [
    "Verif.Builder.MergeTool.C125_written",
    "Verif.Builder.MergeTool.C125_nothing_partial",
    "Verif.Builder.MergeTool.C125_index",
    "Verif.Builder.MergeTool.C125_ends_partial",
    "Verif.Builder.MergeTool.C125_result",
    "Verif.Builder.MergeTool.C125_refuted"
   ],
   "note": "Refuted: a dry run makes the output directory and in mode system downloads two files into it; it does not notice names that occur twice. Dry run proved in mode local with an existing directory. With the import of download_index_file corrected, otherwise mode system always fails."
  },
  {
   "property": "C126",
   "status": "partial",
   "theorems": [
    "Verif.Docs.ConfigTable.C126_hidden_partial",
    "Verif.Docs.ConfigTable.C126_back_partial",
    "Verif.Docs.ConfigTable.C126_rows",
    "Verif.Docs.ConfigTable.C126_made_partial",
    "Verif.Docs.ConfigTable.C126_defaults_partial",
    "Verif.Docs.ConfigTable.C126_variable",
    "Verif.Docs.ConfigTable.C126_refuted"
   ],
   "note": "Refuted: built by a user called regrid the default cache directory is shown as earthkit-${USER}; without home directory (HOME is ~/) tidy calls itself until python stops it; a name that does not follow a hyphen is shown. Proved for absolute homes and names without dollar sign. The expressions given by pages are taken literally; descriptions and repr are not modelled."
  },
  {
   "property": "C127",
   "status": "partial",
   "theorems": [
    "Verif.Temporary.C127_once",
    "Verif.Temporary.C127_own_partial",
    "Verif.Temporary.C127_others",
    "Verif.Temporary.C127_with_partial",
    "Verif.Temporary.C127_refuted"
   ],
   "note": "Refuted: after the file was removed by others the object keeps the path, raises, and removes whatever is there later; a with block whose body removes the file raises. Removing one file at most is proved for all histories; the rest when nobody else touches the path."
  },
  {
   "property": "C128",
   "status": "partial",
   "theorems": [
    "Verif.Builder.C128_directory",
    "Verif.Builder.C128_campaign_partial",
    "Verif.Builder.C128_refuted"
   ],
   "note": "Refuted as the code is written: no build comes through (C71, C117). Proved end to end with the path given to the converter as it expects it, for builds without accidental sharing of files, and when the other matrices of the build are for other grids or methods than the request."
  },
  {
   "property": "C129",
   "status": "partial",
   "theorems": [
    "Verif.Builder.C129_links",
    "Verif.Builder.C129_found",
    "Verif.Builder.C129_refuted",
    "Verif.Builder.C129_stale_refuted"
   ],
   "note": "Refuted for a second run: what a failed run left passes, without an index; a later build is not seen. Proved, with the exact condition for success, for a run from nothing."
  },
  {
   "property": "C130",
   "status": "proved",
   "theorems": [
    "Verif.Regrid.Args.C130_message",
    "Verif.Regrid.Args.C130_array",
    "Verif.Regrid.Args.C130_fields",
    "Verif.Regrid.Args.C130_xarray",
    "Verif.Regrid.Args.C130_oldArray",
    "Verif.Regrid.Args.C130_oldFields",
    "Verif.Regrid.Args.C130_default",
    "Verif.Regrid.Args.C130_refused"
   ],
   "note": "Carried out: an equivalence for each of the six functions (lists of fields that are not empty, at least one call for xarray data; C119 has the empty list). Defaults: one theorem for all functions and arguments; the two exceptions are shown to be refused."
  },
  {
   "property": "C131",
   "status": "proved",
   "theorems": [
    "Verif.GridSpec.C131_exact",
    "Verif.GridSpec.C131_accepted",
    "Verif.GridSpec.C131_refused",
    "Verif.GridSpec.C131_decided"
   ],
   "note": "Equivalences with relations on the two dicts as given (`Matches`, `IsKind`, `Readable`, `Refusal`), independent of the model's functions. Numbers are rationals; nested lists as `grid` (numpy arrays of two dimensions) raise in the model. Comparing documented (plain) descriptions never raises (C131_decided); which exception another accepted pair raises while compared is not claimed."
  },
  {
   "property": "C132",
   "status": "partial",
   "theorems": [
    "Verif.Index.C132_found_partial",
    "Verif.Index.C132_undisturbed_partial",
    "Verif.Index.C132_spoilt_refuted"
   ],
   "note": "Proved for inventories of entries with a method and plain grids (documented forms, C131), and entries of grids not known to this version. Refuted: one entry of supported grids whose method cannot be read makes every lookup that comes to it raise (KeyError or ValueError), also for weights that are there."
  },
  {
   "property": "C133",
   "status": "proved",
   "theorems": [
    "Verif.Regrid.C133_outcome",
    "Verif.Regrid.C133_one"
   ],
   "note": "Outcome is the specification (index file, weights, values, request as given); C133_outcome says the call comes to it, C133_one that it allows one result. Strict mode of the in-memory cache is left off (C82), one thread, one inventory that does not change; exact arithmetic of any commutative ring."
  },
  {
   "property": "C134",
   "status": "partial",
   "theorems": [
    "Verif.DiskCache.C134_owner",
    "Verif.DiskCache.C134_refuted"
   ],
   "note": "Holds for lambda e: e[\"owner\"] == owner (C134_owner). Refuted for the call in the documentation, lambda e: [\"owner\"] == \"test_cache\": it deletes nothing in any cache."
  },
  {
   "property": "C135",
   "status": "proved",
   "theorems": [
    "Verif.Regrid.C135_outcome"
   ],
   "note": "OutcomeD and PointD are the specification (index file, weights, values, request as given). Each product and sum rounded to double, no fused operations. Strict mode of the in-memory cache off (C82), one thread, one inventory that does not change; the signs of zeros and the payload of NaNs are not modelled."
  },
  {
   "property": "C136",
   "status": "proved",
   "theorems": [
    "Verif.Regrid.C136_outcome"
   ],
   "note": "ListOutcome, FieldsOutcome, FieldOutcome (with OutcomeD, PointD of C135) are the specification. Encoding of the results as fields (from_numpy, metadata.override) is a pair of values and metadata; limits as in C135."
  },
  {
   "property": "C137",
   "status": "partial",
   "theorems": [
    "Verif.DiskCache.C137_database",
    "Verif.DiskCache.C137_helpers_partial",
    "Verif.DiskCache.C137_chain_partial",
    "Verif.DiskCache.C137_deleted_partial",
    "Verif.DiskCache.C137_helpers_refuted"
   ],
   "note": "The database part is proved. Helpers: refuted when the path of the entry (its directory included) has a dot – then every old file whose name begins with the entry's is attached (C137_helpers_refuted); partial: names of attached files extend the entry's, from a dot on if its path has none. The same for chains of attachments (C137_chain_partial), and so for all files that purge(matcher) and trimming delete (C137_deleted_partial). sqlite's own journal files are not modelled."
  },
  {
   "property": "C138",
   "status": "proved",
   "theorems": [
    "Verif.DiskCache.C138_data",
    "Verif.DiskCache.C138_update"
   ],
   "note": "LastNoted is the specification. Owner data is a number that stands for its JSON text."
  },
  {
   "property": "C139",
   "status": "proved",
   "theorems": [
    "Verif.DiskCache.C139_raises",
    "Verif.DiskCache.C139_unchanged"
   ],
   "note": "Raises is the specification. Errors of sqlite and of the operating system other than a missing file are not modelled; being outside is the code's own test on text (C65)."
  },
  {
   "property": "C140",
   "status": "proved",
   "theorems": [
    "Verif.DiskCache.Create.C140_locks",
    "Verif.DiskCache.Create.C140_given_back",
    "Verif.DiskCache.Create.C140_not_stuck"
   ],
   "note": "Without the assumption Calm of C57. That no process is starved by others is not claimed: waiting is trying again."
  },
  {
   "property": "C141",
   "status": "proved",
   "theorems": [
    "Verif.Xarray.C141_values",
    "Verif.Xarray.C141_refused",
    "Verif.Xarray.C141_returned",
    "Verif.Xarray.C141_cache"
   ],
   "note": "MIR's gridspec of the input (canon) and geography of the target are parameters; data of type float64; dask and datasets are not in this claim (datasets: C74)."
  },
  {
   "property": "C142",
   "status": "proved",
   "theorems": [
    "Verif.Regrid.C142_outcome",
    "Verif.Regrid.C142_refused",
    "Verif.Regrid.C142_now"
   ],
   "note": "The \"memory\" of an entry is a function of the entry; weights already held are served whatever their published size."
  },
  {
   "property": "C143",
   "status": "proved",
   "theorems": [
    "Verif.Regrid.Threads.C143_outcome",
    "Verif.Regrid.Threads.C143_now",
    "Verif.Regrid.Threads.C143_returns"
   ],
   "note": "One loaded index that is not loaded again meanwhile (C96 is about that). The steps are those of C13's model; descriptions of grids and the product touch nothing shared."
  },
  {
   "property": "C144",
   "status": "proved",
   "theorems": [
    "Verif.Remote.C144_values",
    "Verif.Remote.C144_first_use"
   ],
   "note": "One process at a time. Whether the weights are those on the server now is C98. The content of a weights file is parsed by a given function (load_npz); the base URL is not empty."
  },
  {
   "property": "C145",
   "status": "proved",
   "theorems": [
    "Verif.Remote.Shared.C145_values",
    "Verif.Remote.Shared.C145_returns"
   ],
   "note": "The index is loaded and does not change meanwhile (C97, C144 are about that); load_npz reads the file in one step; the in-memory caches may forget anything at any time. Removals under the lock's feet break files: C57_refuted. Resuming a partial download is not modelled."
  },
  {
   "property": "C146",
   "status": "proved",
   "theorems": [
    "Verif.DiskCache.Locks.C146_exclusive",
    "Verif.DiskCache.Locks.C146_answered"
   ],
   "note": "Programs are lock operations, requests and other work (Locks.lean); a lock is taken by one thread at a time (threading.Lock, FileLock are trusted for that step)."
  },
  {
   "property": "C147",
   "status": "partial",
   "theorems": [
    "Verif.Json.Dates.C147_same_file_iff_same_dates_partial",
    "Verif.Json.Dates.C147_errors",
    "Verif.Json.Dates.C147_refuted"
   ],
   "note": "Proved with pandas installed for arguments without a text that reads like a date (C59's restrictions apply too), with the exact conditions of failure. Refuted in full: a date shares the file of its text; without pandas, which is not a dependency, every date is refused with ModuleNotFoundError."
  },
  {
   "property": "C148",
   "status": "partial",
   "theorems": [
    "Verif.Testing.Fetch.C148_files_partial",
    "Verif.Testing.Fetch.C148_returns_partial",
    "Verif.Testing.Fetch.C148_shape",
    "Verif.Testing.Fetch.C148_refuted"
   ],
   "note": "Proved for files that nobody is writing and nobody was killed while writing (also for several calls that download the same file at the same time: the last one to open it wins and the others write the same bytes). Refuted in full: the file is written in place, so a call returns the half file of another one or of a killed one; a list of one name is answered with a bare path."
  },
  {
   "property": "C149",
   "status": "proved",
   "theorems": [
    "Verif.Docs.Output.C149_restored",
    "Verif.Docs.Output.C149_page",
    "Verif.Docs.Output.C149_pages",
    "Verif.Docs.Output.C149_raises"
   ],
   "note": "string2lines and the text of a traceback are parameters. C149_raises: the exact cases in which the directive raises (no content, only empty lines or an unknown page: UnboundLocalError in the handler, sys.exit())."
  },
  {
   "property": "C150",
   "status": "partial",
   "theorems": [
    "Verif.Config.SaveText.C150_reads_partial",
    "Verif.Config.SaveText.C150_moment_partial",
    "Verif.Config.SaveText.C150_refuted",
    "Verif.Config.SaveText.C150_digits_refuted",
    "Verif.Config.SaveText.C150_root_refuted"
   ],
   "note": "Proved for plain values (None, truth values, numbers, texts of letters, digits and / - . _ + %): the whole text reads back (C150_reads_partial); of a cut text every option but one is as saved or default (C150_moment_partial). Refuted: what is left of a value is taken for the value (C150_refuted: every cut of every unquoted value; a tenth of a size, the root directory). The yaml syntax read is the part such files use; which words yaml takes for numbers etc. is a parameter with its laws."
  },
  {
   "property": "C151",
   "status": "proved",
   "theorems": [
    "Verif.Json.C151_whole",
    "Verif.Json.C151_moment",
    "Verif.Json.C151_dumps",
    "Verif.Json.C151_number_refuted"
   ],
   "note": "Encoder and decoder of the standard library's json at the level of characters. Proved for every value (C151_whole), for the sorted text under which requests are hashed (C151_dumps), and for every prefix of the text of an object, list or string (C151_moment). C151_number_refuted: a file with only a number would not be protected; no such file is written. float(text) is a parameter with its law on the texts that were written; an object is a list of items."
  },
  {
   "property": "C152",
   "status": "proved",
   "theorems": [
    "Verif.Docs.Xref.C152_target",
    "Verif.Docs.Xref.C152_title",
    "Verif.Docs.Xref.C152_documentation",
    "Verif.Docs.Xref.C152_bare_refuted"
   ],
   "note": "Proved for a target on its own, for a title with a target, and for the pages. The claim does not extend to a target in angle brackets without a title: C152_bare_refuted. caption_ref_re is sphinx's expression, modelled for texts without NUL that do not end with a line break."
  },
  {
   "property": "C153",
   "status": "partial",
   "theorems": [
    "Verif.Config.Html.C153_html_partial",
    "Verif.Config.Html.C153_values_partial",
    "Verif.Config.Html.C153_print_partial",
    "Verif.Config.Html.C153_markup_refuted"
   ],
   "note": "Proved for pages whose texts have neither < nor & and for printed texts without commas and line ends. Refuted in general: values are not escaped, so the directories /a and /a<b> show the same table. repr of python is a parameter; what a browser makes of the page is a small machine over tags and text that does not describe character references."
  },
  {
   "property": "C154",
   "status": "partial",
   "theorems": [
    "Verif.Index.SubsetCmd.C154_accepted",
    "Verif.Index.SubsetCmd.C154_run",
    "Verif.Index.SubsetCmd.C154_ends",
    "Verif.Index.SubsetCmd.C154_untouched",
    "Verif.Index.SubsetCmd.C154_dash_refuted"
   ],
   "note": "Exact description of accepted argument lists (without the separator --) and of what main does with them. Refuted for directory names that begin with a dash given as a word of their own (C154_dash_refuted). argparse is modelled for this parser; what looks like a negative number is a parameter."
  },
  {
   "property": "C155",
   "status": "partial",
   "theorems": [
    "Verif.Builder.MergeCmd.C155_accepted",
    "Verif.Builder.MergeCmd.C155_run",
    "Verif.Builder.MergeCmd.C155_untouched",
    "Verif.Builder.MergeCmd.C155_refused",
    "Verif.Builder.MergeCmd.C155_dash_refuted"
   ],
   "note": "Exact description of accepted argument lists (without the separator --) and of what main does with them. Refuted for directory names that begin with a dash given as a word of their own (C155_dash_refuted). argparse is modelled for this parser; what looks like a negative number is a parameter."
  },
  {
   "property": "C156",
   "status": "partial",
   "theorems": [
    "Verif.Regrid.Args.C156_array_partial",
    "Verif.Regrid.Args.C156_fields_partial",
    "Verif.Regrid.Args.C156_replacement_refuted",
    "Verif.Regrid.Args.C156_in_grid_refuted",
    "Verif.Regrid.Args.C156_local_refuted",
    "Verif.Regrid.Args.C156_inventory"
   ],
   "note": "Proved for array.regrid in place of interpolate on arrays (all arguments, exceptions included) and for regrid on field lists that bring their grids. Refuted: the replacement printed for arrays calls the regrid that takes no arrays (C156_replacement_refuted); in_grid for a field list is not refused but replaces the grids of the fields (C156_in_grid_refuted); the backend precomputed-local does not exist (C156_local_refuted)."
  },
  {
   "property": "C157",
   "status": "proved",
   "theorems": [
    "Verif.Config.C157_refines"
   ],
   "note": "Refinement by induction over programs: exceptions, reads and the final book. Observers do not raise (see C19, C20 for those that do)."
  },
  {
   "property": "C158",
   "status": "partial",
   "theorems": [
    "Verif.Config.C158_temporary",
    "Verif.Config.C158_variable",
    "Verif.Config.C158_memory_page_refuted",
    "Verif.Regrid.Args.C158_counters_refuted"
   ],
   "note": "Proved for the page on the configuration, for all options and values. Refuted for the page on the in-memory cache: the policy \"user\" is refused in every state, and its calls of regrid raise ValueError for every array (array.regrid with the same arguments goes to MIR, not to the weights)."
  },
  {
   "property": "C159",
   "status": "partial",
   "theorems": [
    "Verif.GridSpec.C159_page_partial",
    "Verif.GridSpec.C159_latlon",
    "Verif.GridSpec.C159_subtype_refuted"
   ],
   "note": "Proved for every documented way of writing but the ORCA subtype W, which is refused with ValueError (F, which is not on the page, is accepted). Numbers from 1 to a million (ORCA: any digits)."
  },
  {
   "property": "C160",
   "status": "partial",
   "theorems": [
    "Verif.Builder.C160_named",
    "Verif.Builder.C160_identifies_partial",
    "Verif.Builder.C160_refuted"
   ],
   "note": "Proved unless the method is grid-box-average with its default options and there are further keys (or no engine or version): those share the uid of plain grid-box-average whatever the keys. The digest is assumed to tell the two interpolations apart."
  },
  {
   "property": "C161",
   "status": "partial",
   "theorems": [
    "Verif.Remote.C161_again_partial",
    "Verif.Remote.C161_off_returns_partial",
    "Verif.Remote.C161_held",
    "Verif.Remote.C161_once",
    "Verif.Remote.Demo.C161_refuted",
    "Verif.Remote.C161_exact",
    "Verif.Remote.C161_at_most"
   ],
   "note": "Proved when the in-memory cache is off too (n returned calls, n downloads). False with the in-memory cache as it is by default: the same request asked any number of times downloads once (C161_once, C161_refuted). In general, calls that return download as many files as there are calls whose answer is not in memory when they are made (C161_exact). With any settings of both caches, and also if calls raise, there are no more downloads than that (C161_at_most)."
  },
  {
   "property": "C162",
   "status": "proved",
   "theorems": [
    "Verif.DiskCache.Policy.C162_here",
    "Verif.DiskCache.Policy.C162_off",
    "Verif.DiskCache.Policy.C162_none",
    "Verif.DiskCache.Policy.C162_elsewhere"
   ],
   "note": "One thread; a method of the manager is any function of the contents of one directory."
  },
  {
   "property": "C163",
   "status": "partial",
   "theorems": [
    "Verif.GridSpec.C163_refuted",
    "Verif.GridSpec.C163_columns_partial",
    "Verif.GridSpec.C163_fine_refuted"
   ],
   "note": "False: a strip on one meridian and the closed circle (0 to 360) match the global grid of every listed resolution (C163_refuted), and at a hundredth of a degree 36000 meridians match 36001 (C163_fine_refuted). Proved for increments of 1/40 degree or more, two meridians or more, none twice, and flags that tell the truth. Descriptions without a shape."
  },
  {
   "property": "C164",
   "status": "partial",
   "theorems": [
    "Verif.DiskCache.Limit.C164_limit_partial",
    "Verif.DiskCache.Limit.C164_recorded",
    "Verif.DiskCache.Limit.C164_vain_refuted",
    "Verif.DiskCache.Limit.C164_excess"
   ],
   "note": "False after a download that failed: its row keeps size NULL, and nothing registered later is ever deleted, so the disk fills whatever the limit (C164_vain_refuted). Proved for programs in which after each download that failed the path is got in the end or the cache purged; in general, what is above the limit are entries recorded not before a request in vain, and older ones are deleted (C164_excess); the size on record is always that on disk (C164_recorded). One program, files only, every file deletable. maximum-cache-disk-usage may be set or None, with any state of the disk at each check; purges with matchers too."
  },
  {
   "property": "C165",
   "status": "partial",
   "theorems": [
    "Verif.GridSpec.C165_rows_partial",
    "Verif.GridSpec.C165_points_partial",
    "Verif.GridSpec.C165_refuted",
    "Verif.GridSpec.C165_fine_refuted"
   ],
   "note": "False: the strip on the meridian 0 matches the global grid of every listed resolution, which has at least 36 times as many points (C165_refuted); at a hundredth of a degree 18001 parallels match 18002 (C165_fine_refuted). Proved for increments of 1/40 degree or more (parallels: 1/60), two meridians or more, none twice, and flags that tell the truth. Descriptions without a shape."
  },
  {
   "property": "C166",
   "status": "partial",
   "theorems": [
    "Verif.Builder.C166_recorded_partial",
    "Verif.Builder.C166_refuted",
    "Verif.Builder.C166_each_partial"
   ],
   "note": "False after a build that raised: the matrix file is replaced before the description is read on, so an entry built before keeps the memory of the matrix it replaced (C166_refuted). Proved when every build returned, and for one entry among builds that raise if the last one planned for its key returned (C166_each_partial), for the path handed over as a Path (with the str of the code every build raises, C71_refuted). That the number recorded is matrix_memory_size of the matrix loaded back is the hypothesis hm on the model's record of remaining fields; the digest has no slash."
  },
  {
   "property": "C167",
   "status": "partial",
   "theorems": [
    "Verif.Regrid.C167_order_formats",
    "Verif.Regrid.C167_order",
    "Verif.Regrid.C167_sign",
    "Verif.Regrid.C167_range_partial",
    "Verif.Regrid.C167_refuted"
   ],
   "note": "Order proved exactly, in doubles, with overflow, unless a result is missing (C167_order, other formats C167_order_formats), and so is the change of sign (C167_sign; the sign of zeros is not modelled; that results are not negative if the values are not is C122_sign). Range: false in doubles, a constant field of a third with weights 25/32 and 7/32 comes out smaller (C167_refuted); proved up to (n+1) 2^-52 of the largest value, for any sum of the weights (C167_range_partial; exact arithmetic: C46_range, C46_constant). Sums from left to right without fused multiply-add, as in C122."
  },
  {
   "property": "C168",
   "status": "partial",
   "theorems": [
    "Verif.Builder.C168_loading_partial",
    "Verif.Builder.C168_strict",
    "Verif.Builder.C168_refuted"
   ],
   "note": "C166 and C123 together. False outside strict mode for weights larger than the limit: they are loaded and nothing is evicted first (C168_refuted), and after builds that raised (C166_refuted). Proved for all other weights and for strict mode (C168_loading_partial, C168_strict). The entry a search finds may be any one; weights are stored as CSR, as the builder does; the key of an entry has no slash (a digest)."
  },
  {
   "property": "C169",
   "status": "partial",
   "theorems": [
    "Verif.DiskCache.Limit.C169_refuted",
    "Verif.DiskCache.Limit.C169_purge",
    "Verif.DiskCache.Limit.C169_found_partial",
    "Verif.DiskCache.Limit.C169_history_purge",
    "Verif.DiskCache.Limit.C169_tracked",
    "Verif.DiskCache.Limit.C169_history_partial"
   ],
   "note": "False: a program killed between os.rename and _update_entry leaves a file without a recorded size; _check_cache_size compares the recorded sizes with the limit before it looks at the directory, so any number of such files of any size stays (C169_refuted, for all sequences of killed programs). Proved for every history of programs, killed or not (C169_history_purge, C169_tracked, C169_history_partial; C169_purge, C169_found_partial: one kill, at the end): every file is in the table and what is recorded is right; purge deletes all files; if what is recorded is above the limit or the disk is too full at a check, all files are recorded, and the check after that brings the cache within the limit. The lock files of killed programs are left out."
  },
  {
   "property": "C170",
   "status": "proved",
   "theorems": [
    "Verif.Index.C170_fails_alike",
    "Verif.Index.C170_file",
    "Verif.Index.C170_unaltered"
   ],
   "note": "About the entries given; what becomes of them as an index: C171."
  },
  {
   "property": "C171",
   "status": "partial",
   "theorems": [
    "Verif.Index.C171_found_partial",
    "Verif.Index.C171_refuted",
    "Verif.Index.C171_exact"
   ],
   "note": "False: to_raw raises KeyError for every raw subset with entries, and nothing is found in one whose entries leave out a key that has a default (C171_refuted). Proved: whatever is found has all compared keys written out (C171_found_partial), and exactly when an entry is found (C171_exact). What the classes add to GridSpec.__eq__ is a parameter; entries of the file are taken to have no key _name."
  },
  {
   "property": "C172",
   "status": "partial",
   "theorems": [
    "Verif.Regrid.Builtins.C172_alone_partial",
    "Verif.Regrid.Builtins.C172_listing_partial",
    "Verif.Regrid.Builtins.C172_exact",
    "Verif.Regrid.Builtins.C172_refuted"
   ],
   "note": "False for what is not an Exception (SystemExit while a module is imported): the scan raises (C172_refuted). Proved for every Exception (C172_alone_partial) and for the order of listing (C172_listing_partial); exactly which class a name stands for: C172_exact. The outcome of an import is a function of the module's name."
  }
 ]
}