{"claims": [
 {"property": "C01", "status": "proved", "theorems": ["Verif.SH.addHook_result", "Verif.SH.hook_ids_unique", "Verif.SH.hook_ids_positive", "Verif.SH.hook_identity_stable"], "note": "All reachable registry states; ids of removed hooks are reused (hook_id_reused)."},
 {"property": "C02", "status": "proved", "theorems": ["Verif.SH.removeHookById_exact", "Verif.SH.removeHookById_again", "Verif.SH.registry_never_faults"], "note": "Every reachable registry state and every integer id."},
 {"property": "C03", "status": "proved", "theorems": ["Verif.SH.call_order", "Verif.SH.group_order", "Verif.SH.before_original", "Verif.SH.invoked_are_registered", "Verif.SH.hooked_call_enters"], "note": "Hooks of the slot constant during the call; the sequence of callees of the call is exactly pre, preVP, original (at most once), post, postVP. Recalls are included (they carry the same call number). Contract Ok of LoopInv.lean."},
 {"property": "C04", "status": "proved", "theorems": ["Verif.SH.hooks_in_order", "Verif.SH.hooks_listed_in_order", "Verif.SH.invoked_are_registered", "Verif.SH.invoked_is_live"], "note": "For every reachable machine state, whatever was added, removed, paused or called in between at any depth."},
 {"property": "C05", "status": "proved", "theorems": ["Verif.SH.no_hook_missed", "Verif.SH.no_hook_missed_from_start"], "note": "Also for hooks added or unpaused while their group is running."},
 {"property": "C06", "status": "proved", "theorems": ["Verif.SH.handler_sees", "Verif.SH.call_outcome", "Verif.SH.handler_status"], "note": "Model of the hookfunc macros and context accessors (Verif/SH/Loop.lean). call_outcome: whether the original is called and what the caller gets, for every reachable state and every call without recall; handler_sees: META_RESULT_STATUS / PREVIOUS / ORIG_RET / OVERRIDE_RET seen by a handler; handler_status also covers recalled activations. The contract on clients is Ok/RegOk (DESIGN.md)."},
 {"property": "C07", "status": "proved", "theorems": ["Verif.SH.setHookPaused_exact", "Verif.SH.setPluginPaused_exact", "Verif.SH.setHookPaused_last_wins", "Verif.SH.invoked_is_live", "Verif.SH.invoked_are_registered", "Verif.SH.no_hook_missed"], "note": "Registry part plus the loop: a handler is only invoked if its hook is unpaused at that moment; an unpaused hook is invoked at its place in the list."},
 {"property": "C08", "status": "proved", "theorems": ["Verif.SH.slot_patched_iff_hooked", "Verif.SH.other_memory_untouched"], "note": "For slots that can be made writable and whose module is mapped; other words never change."},
 {"property": "C09", "status": "proved", "theorems": ["Verif.SH.best_manager_serves", "Verif.SH.offers_after_add", "Verif.SH.offers_after_other"], "note": "offers_after_* characterise the history variable 'offers' used by best_manager_serves."},
 {"property": "C10", "status": "proved", "theorems": ["Verif.SH.manager_stored_iff_serving", "Verif.SH.hooked_slot_has_record"], "note": "Under the contract that a public function belongs to one plugin; without it shared_pubfunc_loses_record shows a violation."},
 {"property": "C11", "status": "partial", "theorems": ["Verif.SH.shcall_enters", "Verif.SH.shcall_outcome", "Verif.SH.hooked_call_enters", "Verif.SH.call_restores", "Verif.SH.shcall_unhooked_balanced", "Verif.SH.shcall_unhooked_bypasses_others"], "note": "Proved for SH_CALL on a hooked function (contract: GetOrigVfnPtrEntry non-null); for an unhooked function that calls nothing hooked SH_CALL leaves everything as it was. If an unhooked function calls a hooked one the last clause is false: SetIgnoreHooks does not record the function, so the hooks of the first hooked function it calls are bypassed; shcall_unhooked_bypasses_others exhibits it."},
 {"property": "C12", "status": "partial", "theorems": ["Verif.SH.handler_status", "Verif.SH.recall_carries", "Verif.SH.recalling_loop_is_over", "Verif.SH.no_original_after_post", "Verif.SH.nothing_twice", "Verif.SH.call_order", "Verif.SH.no_hook_missed", "Verif.SH.replaced_recall_dangling"], "note": "Order and completeness theorems are stated per call id, so they span all activations of a recalled call. Contract: a handler recalls its own function on its own object while the function is hooked and the object's own hooks were not all replaced. Outside it the claim is false: replaced_recall_dangling."},
 {"property": "C13", "status": "partial", "theorems": ["Verif.SH.unload_removes_exactly_own_partial", "Verif.SH.unload_removes_all", "Verif.SH.unload_removes_others_hooks"], "note": "False after an explicit RemoveHookManager (unload_removes_others_hooks); proved for all executions without it."},
 {"property": "C14", "status": "partial", "theorems": ["Verif.SH.unload_accounting", "Verif.SH.released_at_once", "Verif.SH.released_only_when_idle", "Verif.SH.released_by_second_drain", "Verif.SH.recall_unhooked_leaks"], "note": "requests = releases + waiting in every reachable state; release at once when idle; release steps end with an empty context stack or are forced; after two drains nothing requested before still waits. Within the contract Ok. A handler that removes its function's last hook and then recalls the function leaves a context behind for ever; a plugin unloaded later, with no call running, is then never released (recall_unhooked_leaks)."},
 {"property": "C15", "status": "partial", "theorems": ["Verif.SH.outer_untouched", "Verif.SH.call_restores", "Verif.SH.note_effect", "Verif.SH.notes_true", "Verif.SH.recall_unhooked_leaks"], "note": "outer_untouched: a nested call never changes status, values or phase of outer activations, their contexts only change by removal notices; note_effect/notes_true say what a notice does and that it names really removed records. Within the contract Ok. A handler that removes its function's last hook and then recalls the function leaves a context on the stack (recall_unhooked_leaks)."},
 {"property": "C16", "status": "partial", "theorems": ["Verif.SH.hook_calls_never_fault_partial", "Verif.SH.vp_replaced_dangling", "Verif.SH.vp_post_replaced_dangling", "Verif.SH.manager_removed_dangling", "Verif.SH.unload_in_call_dangling", "Verif.SH.replaced_recall_dangling"], "note": "Freed records, returned activations and unset pointers are distinct faults of the model; none is reachable under the contract Ok. The full claim is false: for each part of the contract that excludes something a handler can do (replacing the last vtable-wide hook while it runs, RemoveHookManager or certain UnloadPlugin calls from inside a call, recalling after replacing the object's last hook) an execution ends in a use of a freed record."},
 {"property": "C17", "status": "proved", "theorems": ["Verif.SH.handlers_deleted_exactly_once", "Verif.SH.handler_deleted_iff_gone"], "note": "Per operation and over whole executions."},
 {"property": "C18", "status": "partial", "theorems": ["Verif.SH.thunk_not_freed_early", "Verif.SH.thunk_freed_iff", "Verif.SH.no_thunk_no_free", "Verif.SH.thunk_freed_once_partial", "Verif.SH.thunk_freed_twice"], "note": "Never freed early, and freed as soon as the record is gone and nothing running uses it, for all executions of the machine. At-most-once holds only while no loop starts in a stack slot with a stale task; the general claim is false (thunk_freed_twice): the task pointer is never cleared."},
 {"property": "C19", "status": "proved", "theorems": ["Verif.SH.removeHook_exact", "Verif.SH.desc_recorded", "Verif.SH.desc_stable"], "note": "Match is by recorded description, object, plugin, offset, handler key and side."},
 {"property": "C20", "status": "proved", "theorems": ["Verif.Page.thunk_jumps", "Verif.Page.thunk_fits", "Verif.Page.thunk_bytes", "Verif.Page.origCallAddr_even", "Verif.Page.thunk_alloc", "Verif.Page.thunkOffset_exact"], "note": "All pairs of 64-bit addresses, with a three-instruction x86-64 semantics written from the manual (part of the trusted base). The thunk address comes from the page allocator model of C25; a failing allocation is not covered."},
 {"property": "C21", "status": "proved", "theorems": ["Verif.Cont.init_rep", "Verif.Cont.list_step", "Verif.Cont.list_refines", "Verif.Cont.list_iterators_stay", "Verif.Cont.list_walks", "Verif.Cont.list_destroy"], "note": "Pointer-level model of List refined to a sequence of (node, value) pairs. Allocation never fails and returns any address not in use; self-assignment (which empties the list) is outside."},
 {"property": "C22", "status": "proved", "theorems": ["Verif.Cont.init_srep", "Verif.Cont.stack_step", "Verif.Cont.stack_at", "Verif.Cont.stack_front", "Verif.Cont.stack_never_moves", "Verif.Cont.stack_never_moves_run", "Verif.Cont.makeNext_top"], "note": "Every operation succeeds and refines a LIFO sequence; element addresses (sector pointer, index) never change. make_next shows old content, as the code does. Copying a stack is not modelled (no caller)."},
 {"property": "C23", "status": "partial", "theorems": ["Verif.Cont.vec_step", "Verif.Cont.vec_refines", "Verif.Cont.vec_at_partial", "Verif.Cont.vec_size", "Verif.Cont.at_end_unchecked", "Verif.Cont.push_own_element", "Verif.Cont.assign_self_empties", "Verif.Cont.insert_own_before", "Verif.Cont.insert_own_behind", "Verif.Cont.insert_own_full", "Verif.Cont.popBackW_agrees", "Verif.Cont.pop_empty_wraps"], "note": "Refinement to a sequence proved for all operations whose arguments lie outside the vector. Negations proved: at(size()) passes the check and reads out of bounds; push_back of an own element when full reads a deleted array; self-assignment empties the vector."},
 {"property": "C24", "status": "proved", "theorems": ["Verif.Cont.init_hrep", "Verif.Cont.hash_step", "Verif.Cont.hash_refines", "Verif.Cont.grow_keeps", "Verif.Cont.iteration", "Verif.Cont.erase_while_iterating"], "note": "The table refines a finite map over every sequence of operations, growth keeps the contents, iteration visits each entry once, also when entries are erased during it. The bucket lists are taken as sequences (C21 proves that for the list class), the growth test is an arbitrary parameter, fewer than 2^31 buckets. Copying a table is not modelled."},
 {"property": "C25", "status": "partial", "theorems": ["Verif.Page.init_inv", "Verif.Page.blocks_good", "Verif.Page.blocks_apart", "Verif.Page.isolated_alone", "Verif.Page.alloc_step", "Verif.Page.free_step", "Verif.Page.free_other", "Verif.Page.free_keeps_content", "Verif.Page.setAccess_step", "Verif.Page.run_blocks", "Verif.Page.page_alloc_partial", "Verif.Page.zero_size_shares", "Verif.Page.map_failed_used"], "note": "Proved for requests of at least one byte and mmap calls that succeed. The full claim is false: a request of size 0 returns the address of a block in use, and a failed mmap is kept as a region (negations with witnesses)."},
 {"property": "C26", "status": "partial", "theorems": ["Verif.Mgr.ids_distinct_partial", "Verif.Mgr.load_id_new_partial", "Verif.Mgr.retry_same_ids", "Verif.Mgr.retry_id_reused", "Verif.Mgr.load_answer", "Verif.Mgr.retry_hooks_lost", "Verif.Mgr.retry_hooks_stay", "Verif.Mgr.retry_nested_dangling"], "note": "Distinct ids proved for every program of manager calls and nested callbacks; callbacks run by Retry and by the AllPluginsLoaded announcement may not load plugins or announce. load_id_new_partial (a new id was never used by a live hook or object) is for programs without Retry. Without these limits the property is false: retry_same_ids and retry_id_reused are concrete executions where two plugins share an id or an id is given out again."},
 {"property": "C27", "status": "partial", "theorems": ["Verif.Mgr.paths_distinct_partial", "Verif.Mgr.load_loaded", "Verif.Mgr.load_self_uninit", "Verif.Mgr.load_failed_says_already"], "note": "At most one loaded plugin per path for every program of manager calls and nested callbacks (callbacks of Retry and of the announcement may not load plugins); loading a path already loaded changes nothing. load_self_uninit: loading the own file during Load reads an unset status. load_failed_says_already: the already flag is also set for a plugin that had failed."},
 {"property": "C28", "status": "partial", "theorems": ["Verif.Mgr.status_life_partial", "Verif.Mgr.status_cause_partial", "Verif.Mgr.hooks_paused_partial", "Verif.Mgr.pause_no", "Verif.Mgr.unpause_no", "Verif.Mgr.unload_no", "Verif.Mgr.unload_yes_partial", "Verif.Mgr.late_hook_active", "Verif.Mgr.retry_pause_misses", "Verif.Mgr.load_called", "Verif.Mgr.load_not_called", "Verif.Mgr.unload_agreed", "Verif.Mgr.unload_waits", "Verif.Mgr.unload_refused"], "note": "Status writes follow the life cycle and each has its cause; hooks are paused exactly with the plugin except hooks added while paused (late_hook_active) and after Retry (retry_pause_misses)."},
 {"property": "C29", "status": "partial", "theorems": ["Verif.Mgr.pause_event_partial", "Verif.Mgr.unpause_event_partial", "Verif.Mgr.unload_event_partial", "Verif.Mgr.load_event_partial", "Verif.Mgr.failed_load_announced", "Verif.Mgr.retry_not_announced", "Verif.Mgr.unloadAll_not_announced", "Verif.Mgr.event_unload_dangling"], "note": "Exact list of event calls for listeners that leave the list and the listeners alone. False otherwise: failed loads are announced, Retry and UnloadAll announce nothing, a listener that unloads its own plugin leaves a dangling iterator."},
 {"property": "C30", "status": "partial", "theorems": ["Verif.Mgr.told_once_partial", "Verif.Mgr.announce_again", "Verif.Mgr.announced_stays_partial", "Verif.Mgr.announce_exact_partial", "Verif.Mgr.late_told_partial", "Verif.Mgr.told_twice", "Verif.Mgr.paused_never_told"], "note": "At most once for every program whose announcement callbacks load nothing; the announcement takes effect once and tells exactly the running plugins in list order; a plugin loaded later is told right after its load. The exact claim is false: told_twice (a plugin loaded by a callback of the announcement is told twice) and paused_never_told (a plugin paused at the announcement is never told)."},
 {"property": "C31", "status": "proved", "theorems": ["Verif.Mgr.alias_map", "Verif.Mgr.alias_other"], "note": "Every sequence of SetAlias calls and every key, against a separate finite map spec; one entry per alias."},
 {"property": "C32", "status": "proved", "theorems": ["Verif.Core.query_answer", "Verif.Core.query_order", "Verif.Core.query_plain", "Verif.Core.meta_own", "Verif.Core.meta_own_iff", "Verif.Core.meta_null", "Verif.Core.meta_plain", "Verif.Core.query_unload_dangling"], "note": "query_answer holds for listeners that do anything (a run that does not end in undefined behaviour). Order and totality are for listeners that do not change the lists while queried; query_unload_dangling shows that a listener that unloads its own plugin makes the iteration use a freed node. The first draft of the statement was corrected to what the code does."},
 {"property": "C33", "status": "partial", "theorems": ["Verif.Util.search_partial", "Verif.Util.search_finds", "Verif.Util.search_returns_offered_partial", "Verif.Util.search_tries_once", "Verif.Util.search_repeats", "Verif.Util.search_never_ends", "Verif.Util.vInterface_from", "Verif.Util.vInterface_keeps"], "note": "Exact sequence of names, result and termination for names ending in a non-digit followed by three digits. Two parts are false of the code and proved so: with max 999 the name of version 100 is tried twice (search_repeats), and a name without trailing digits never ends when nothing is offered (search_never_ends)."},
 {"property": "C34", "status": "partial", "theorems": ["Verif.Util.formatIface_increments_partial", "Verif.Util.formatIface_clobbers", "Verif.Util.formatIface_overruns", "Verif.Util.formatIface_empty_faults", "Verif.Util.formatIface_small"], "note": "The three-digit case is proved for all names and versions below 999. The rest is false of the code and proved so: a name without trailing digits loses its last character, 'V1' in an exact buffer is overrun, and the empty name writes before the buffer."},
 {"property": "C35", "status": "proved", "theorems": ["Verif.Util.pathCmp_spec", "Verif.Util.pathCmp_equiv", "Verif.Util.mmPathCmp_spec"], "note": "Buffer-level model of the Linux branch; ok outcome means no access outside the two objects. realpath is a parameter."},
 {"property": "C36", "status": "partial", "theorems": ["Verif.Util.relatize_resolves_partial", "Verif.Util.relatize2_resolves", "Verif.Util.badRelatize_resolves", "Verif.Util.relatize_double_sep_wrong", "Verif.Util.relatize_same_dir_wrong", "Verif.Util.relatize_fits"], "note": "Two negations: doubled separators make UTIL_BadRelatize go up too far, and a target equal to the start with a trailing separator gives '/'. Outside these cases the result resolves to the target."},
 {"property": "C37", "status": "proved", "theorems": ["Verif.Util.utilTrimLeft_spec", "Verif.Util.utilTrimRight_spec", "Verif.Util.mmTrimLeft_spec", "Verif.Util.mmTrimRight_spec", "Verif.Util.trim_laws"], "note": "All four functions at buffer level."},
 {"property": "C38", "status": "proved", "theorems": ["Verif.Util.format_spec", "Verif.Util.format_failure_terminates", "Verif.Util.format_zero_faults", "Verif.Util.pathFormat_spec"], "note": "vsnprintf is a parameter (text or failure)."},
 {"property": "C39", "status": "partial", "theorems": ["Verif.Util.keySplit_partial", "Verif.Util.keySplit_overruns", "Verif.Util.keySplit_safe_with_spare", "Verif.Util.keySplit_keeps_quotes"], "note": "The NUL is written one past the buffer exactly when key or value has at least as many characters as the size passed (keySplit_overruns); quotes are kept (keySplit_keeps_quotes)."},
 {"property": "C40", "status": "proved", "theorems": ["Verif.Util.trimComments_cuts", "Verif.Util.trimComments_keeps", "Verif.Util.slashes_cases", "Verif.Util.trimComments_idempotent"], "note": "Buffer-level loop."},
 {"property": "C41", "status": "partial", "theorems": ["Verif.Util.findPattern_partial", "Verif.Util.findPattern_misses_last", "Verif.Util.verifySignature_spec"], "note": "mm_FindPattern never tests the last position of a range (findPattern_misses_last). mm_GetLibraryInfo is a parameter (ranges)."},
 {"property": "C42", "status": "proved", "theorems": ["Verif.SH.proto_eq_decides", "Verif.SH.proto_fill_wf", "Verif.SH.proto_eq_refl", "Verif.SH.proto_eq_symm", "Verif.SH.proto_invalid_never_equal", "Verif.SH.proto_eq_distinguishes", "Verif.SH.proto_exactlyEqual_decides"], "note": "Decision logic of CProto comparison; non-transitivity recorded as proto_eq_not_transitive."},
 {"property": "C43", "status": "partial", "theorems": ["Verif.Loader.vsp_handed_iff", "Verif.Loader.vsp_handed_version", "Verif.Loader.bridged_refuses", "Verif.Loader.core_forwards", "Verif.Loader.code_iff", "Verif.Loader.asked_after_detection", "Verif.Loader.too_early_refused", "Verif.Loader.loads_need_request", "Verif.Loader.load_refused", "Verif.Loader.s2_server_first", "Verif.Loader.unload_twice_unmapped", "Verif.Loader.unload_blocks_reload", "Verif.Loader.shutdown_then_unload_unmapped", "Verif.Loader.second_request_closed", "Verif.Loader.bridge_open_partial", "Verif.Loader.forward_defined_partial", "Verif.Loader.nested_init_dangling", "Verif.Loader.load_bridge_partial", "Verif.Loader.version_told_partial", "Verif.Loader.paths_at_most_ten", "Verif.Loader.game_paths_tried", "Verif.Loader.version_number", "Verif.Loader.dispatch"], "note": "Entry point of the loader over all executions, with external code calling back into it. Partial: a Source2Server request before any Source2ServerConfig request calls a NULL factory (s2_server_first), and unloading leaves pointers to a closed core behind (unload_twice_unmapped, shutdown_then_unload_unmapped, unload_blocks_reload); a further game request in the same process uses a closed library (second_request_closed)."},
 {"property": "C44", "status": "proved", "theorems": ["Verif.Loader.detect_iff", "Verif.Loader.detect_index", "Verif.Loader.detect_not_obsolete", "Verif.Loader.detect_onto", "Verif.Loader.detectS2_spec", "Verif.Loader.names_distinct", "Verif.Loader.libraryPath_spec", "Verif.Loader.library_index", "Verif.Loader.gameName_argument", "Verif.Loader.gameName_no_value", "Verif.Loader.gameName_app", "Verif.Loader.core_has_name", "Verif.Loader.app_number"], "note": "Which interfaces and symbols a library offers is a parameter. The game's name from the command line is copied to a buffer of the given size."},
 {"property": "C45", "status": "partial", "theorems": ["Verif.Loader.init_undone_partial", "Verif.Loader.connect_undone_partial", "Verif.Loader.requestGame_patches", "Verif.Loader.requestConfig_patches", "Verif.Loader.requestS2_patches", "Verif.Loader.game_roundtrip_partial", "Verif.Loader.config_roundtrip_partial", "Verif.Loader.s2_roundtrip_partial", "Verif.Loader.failed_init_null", "Verif.Loader.failed_init_always", "Verif.Loader.requested_twice_recurses", "Verif.Loader.s2_null_answer", "Verif.Loader.s2_null_always", "Verif.Loader.shutdown_slot_partial"], "note": "Proved for external code that does not itself call the loader meanwhile (Quiet). The claim fails when the original fails without a core (failed_init_null), when the interface is requested twice before the first call (requested_twice_recurses) and when the game answers NULL for the server (s2_null_answer)."},
 {"property": "C46", "status": "partial", "theorems": ["Verif.PFile.parseLine_spec", "Verif.PFile.means_total", "Verif.PFile.file_spec_partial", "Verif.PFile.read_total", "Verif.PFile.file_no_overrun", "Verif.PFile.long_line_split", "Verif.PFile.alias_absolute_ignored", "Verif.PFile.loaded_skipped", "Verif.PFile.new_not_skipped", "Verif.PFile.failed_counted_skipped"], "note": "For files whose lines have at most 254 bytes the loop carries out exactly the lines, in order, with the counts as stated; no file leaves a buffer. Against the statement: an 'alias path' line whose path does not start with a letter sets no alias and loads the alias token; longer lines are split; a file whose plugin failed before and loads now is counted as skipped."},
 {"property": "C47", "status": "partial", "theorems": ["Verif.CStr.append_spec", "Verif.CStr.appendC_spec", "Verif.CStr.assign_spec", "Verif.CStr.assign_null", "Verif.CStr.clear_spec", "Verif.CStr.compare_spec", "Verif.CStr.empty_spec", "Verif.CStr.find_spec", "Verif.CStr.findLastOf_spec", "Verif.CStr.at_spec", "Verif.CStr.setAt_spec", "Verif.CStr.erase_actual", "Verif.CStr.erase_partial", "Verif.CStr.trim_spec", "Verif.CStr.substr_spec", "Verif.CStr.string_refines_partial", "Verif.CStr.findLastOf_default", "Verif.CStr.toLower_nothing", "Verif.CStr.toLower_wrong", "Verif.CStr.erase_removes_too_much", "Verif.CStr.erase_past_end", "Verif.CStr.erase_overruns", "Verif.CStr.substr_wraps", "Verif.CStr.substr_overruns", "Verif.CStr.appendOwn_undefined", "Verif.CStr.compare_order"], "note": "assign, append, compare, find, substr, trim, at and size agree with character sequences and stay inside the array. erase does so only for some arguments (erase_partial says which); for others it removes too much or writes outside the array, and toLower, find_last_of without index and appending a string to itself do not work (negations)."},
 {"property": "C48", "status": "partial", "theorems": ["Verif.Core.command_at_most_once", "Verif.Core.command_requested", "Verif.Core.command_sent", "Verif.Core.enable_idempotent", "Verif.Core.enable_nested_twice", "Verif.Core.only_notify_tells", "Verif.Core.notify_tells", "Verif.Core.told_exactly_once", "Verif.Core.late_never_told"], "note": "Listeners present at the notification are told exactly once, in order; EnableVSPListener is idempotent and sends plugin_load at most once. The documented rule on enabling afterwards is false: late_never_told. enable_nested_twice: the command is sent twice if sending it makes a plugin enable the listener."},
 {"property": "C49", "status": "partial", "theorems": ["Verif.SH.make_shared", "Verif.SH.pub_iff_request", "Verif.SH.code_iff_held", "Verif.SH.release_destroys", "Verif.SH.make_destroys_none", "Verif.SH.make_total", "Verif.SH.autogen_partial", "Verif.SH.copyCtor_not_compared"], "note": "Every sequence of MakeHookMan and ReleaseHookMan, also releases of functions never made. Requests are compared without copy constructors, so requests that differ only in these share code (negation)."},
 {"property": "C50", "status": "partial", "theorems": ["Verif.Page.mem_access_cover_partial", "Verif.Page.setMemAccess_exact", "Verif.Page.setMemAccess_succeeds", "Verif.Page.makePageWritable_slot", "Verif.Page.empty_request_changes", "Verif.Page.makePageWritable_two_pages", "Verif.Page.curprocBits_wrong", "Verif.Page.moduleInMemory_maps", "Verif.Page.moduleInMemory_fallback_inverted"], "note": "All addresses, page sizes and lengths of at least one byte that do not reach the end of the address space. An empty request inside a page still changes that page (negation). Also proved: MakePageWritable for an aligned slot, and its failure for an unaligned address across two pages."},
 {"property": "C51", "status": "partial", "theorems": ["Verif.SH.handler_sees", "Verif.SH.handler_ifaceptr", "Verif.SH.recall_ifaceptr", "Verif.SH.override_available", "Verif.SH.recalled_orig_ret_wrong"], "note": "Everything but ORIG_RET in a post handler of a recalled, superceded call, where the code hands out the default-constructed value: recalled_orig_ret_wrong proves the negation with a concrete run."},
 {"property": "C52", "status": "partial", "theorems": ["Verif.Page.genbuf_refines_partial", "Verif.Page.pushes_keep", "Verif.Page.rewrite_exact", "Verif.Page.failed_push_keeps", "Verif.Page.count_between", "Verif.Page.failed_push_overruns", "Verif.Page.failed_push_null"], "note": "Every sequence of push, rewrite and clear with allocations that succeed and less than 4 GiB of code. After a failed allocation the recorded capacity is already raised and the next push writes outside the block (negations with witnesses)."},
 {"property": "C53", "status": "partial", "theorems": ["Verif.Mgr.registered_exact_partial", "Verif.Mgr.unload_unregisters_partial", "Verif.Mgr.unknown_api_leaks", "Verif.Mgr.unlink_unreg_dangling", "Verif.Mgr.unreg_in_load_uninit", "Verif.Mgr.unknown_listener_null"], "note": "The recorded lists are what the log of registrations says for programs in which the registering plugin is known, and unload unregisters each entry once when callbacks leave the lists alone. False otherwise: unknown_api_leaks, unlink_unreg_dangling, unreg_in_load_uninit, unknown_listener_null are concrete executions."},
 {"property": "C54", "status": "proved", "theorems": ["Verif.Util.argument_value", "Verif.Util.argument_without_value", "Verif.Util.argument_absent"], "note": "Linux branch: /proc/self/cmdline holds the arguments after the shell processed quotes, each followed by a NUL."},
 {"property": "C55", "status": "partial", "theorems": ["Verif.Mgr.unloadAll_empty_partial", "Verif.Mgr.unloadAll_ends_partial", "Verif.Mgr.unloadAll_never_ends"], "note": "If UnloadAll returns, the list is empty and the answer is success, whatever the callbacks do. It does return, asking every plugin that has code exactly once in order, from every reachable state outside a Load when callbacks answer as they like but leave the manager alone. unloadAll_never_ends: a plugin that loads another one in its Unload keeps it from ever ending."},
 {"property": "C56", "status": "partial", "theorems": ["Verif.Core.gamedll_loads_once", "Verif.Core.vsp_loads_once_partial", "Verif.Core.vsp_loads_partial", "Verif.Core.nested_load_twice", "Verif.Core.levelShutdown_reloads", "Verif.Core.levels_reload"], "note": "Without restriction for the game DLL loader. For the server plugin loader under the assumption that loading the plugins does not itself report the start of a game or end of a level; nested_load_twice shows it is needed. The reload rule is for callbacks that do not end levels."},
 {"property": "C57", "status": "partial", "theorems": ["Verif.PFile.getExtension_spec", "Verif.PFile.getFullPath_spec", "Verif.PFile.absolute_is_format", "Verif.PFile.empty_name_overreads"], "note": "Proved for every name that is not empty and, if absolute, has no percent sign: an absolute name is used as the format string of vsnprintf, and for the empty name the byte behind the terminator is read."},
 {"property": "C58", "status": "partial", "theorems": ["Verif.PFile.takes_spec", "Verif.PFile.dir_spec_partial", "Verif.PFile.vdf_name_resolves", "Verif.PFile.vdf_name_written", "Verif.PFile.dir_no_overrun", "Verif.PFile.loadPlugins_partial", "Verif.PFile.empty_by_junk", "Verif.PFile.vdf_empty_depends", "Verif.PFile.vdf_failed_skipped", "Verif.PFile.vdf_long_cut"], "note": "Holds for non-empty names, cut to the arrays of 255 and 32 bytes. Findings: with an empty name the plugin depends on uninitialised bytes; a plugin that failed before and fails again counts as already loaded."},
 {"property": "C59", "status": "partial", "theorems": ["Verif.PFile.atoi_numeral", "Verif.PFile.locked_nothing", "Verif.PFile.tells_only", "Verif.PFile.missing_argument", "Verif.PFile.unknown_command", "Verif.PFile.by_number", "Verif.PFile.clear_alias", "Verif.PFile.load_reply", "Verif.PFile.unload_by_name", "Verif.PFile.load_then_unload_partial", "Verif.PFile.unload_digits", "Verif.PFile.unload_not_letter", "Verif.PFile.unload_other_spelling", "Verif.PFile.load_frees_while_busy", "Verif.PFile.atoi_number"], "note": "Unloading under the name used for loading is proved for names that start with a letter; it fails for names that start with digits (taken for a number), with anything else (never found) and for plugins loaded before under another spelling of the path. meta load inside a hook loop frees plugins whose unload waits for the loop. load_reply without Retry."},
 {"property": "C60", "status": "proved", "theorems": ["Verif.Report.list_line", "Verif.Report.list_spec", "Verif.Report.client_list", "Verif.Report.status_text_inverted"], "note": "Finding: GetStatusText has STOPPED and RUNNING the wrong way round (not visible in meta list, which asks only for plugins that do not run)."},
 {"property": "C61", "status": "partial", "theorems": ["Verif.Report.log_partial", "Verif.Report.log_long", "Verif.Report.log_nested", "Verif.Report.log_error_stale"], "note": "The buffer is never left; messages of up to 2045 bytes are told with their newline. Longer ones lose it. The guard against nested messages has no effect: the console is told the inner message twice and never the outer one. If vsnprintf fails the previous message is told again."},
 {"property": "C62", "status": "partial", "theorems": ["Verif.GInfo.paths_spec_partial", "Verif.GInfo.kept", "Verif.GInfo.keep_unique", "Verif.GInfo.named_total", "Verif.GInfo.paths_sound", "Verif.GInfo.detect_sound", "Verif.GInfo.quoted_ignored", "Verif.GInfo.section_never_ends", "Verif.GInfo.long_line_taken", "Verif.Loader.second_detect_true"], "note": "Proved for every file system and content: the loop stays inside its buffers and stores existing files, none the loader's, no two the same, at most ten; for files with lines of at most 254 bytes exactly the files the lines name, in order. Fails, with proofs: nothing ends the section (section_never_ends), quoted keys are not read (quoted_ignored), a longer line is read as several (long_line_taken), a second call answers true though no path was found (second_detect_true)."},
 {"property": "C63", "status": "proved", "theorems": ["Verif.Jit.roundTrip", "Verif.Jit.reads", "Verif.Jit.reads_unique", "Verif.Jit.bytes_inj", "Verif.Jit.movImm64_value", "Verif.Jit.movImm_value", "Verif.Jit.movImm_negative_wrong", "Verif.Jit.rewrite_jcc", "Verif.Jit.rewrite_jump"], "note": "The decoder is written from the Intel manual, independently of the writer. movImm_negative_wrong: mov of a negative 32-bit number zero-extends, the 64-bit register then does not hold that number (no caller in the 64-bit generator depends on it)."},
 {"property": "C64", "status": "proved", "theorems": ["Verif.Jit.pub_null", "Verif.Jit.pub_info", "Verif.Jit.pub_aligned"], "note": "The machine, the decoder and the 64-bit Windows calling convention are specification (trusted); only the operations used are given meaning."},
 {"property": "C65", "status": "partial", "theorems": ["Verif.Jit.hook_refines_partial", "Verif.Jit.hook_refines_kept_partial", "Verif.Jit.vars_apart", "Verif.Jit.call_aligned", "Verif.Jit.hook_answers", "Verif.Jit.prev_never_seen", "Verif.Jit.prev_intended", "Verif.Jit.prev_run", "Verif.Jit.result_lost", "Verif.Jit.result_intended", "Verif.Jit.result_lost_run", "Verif.Jit.object_in_register_lost", "Verif.Jit.object_always_memory"], "note": "hook_refines_partial: for every prototype within the bounds of GenOk, machine state and callee behaviour, the generated bytes simulate the C program hookFunction call for call and return. Missing because the code does otherwise: prev_res is always MRES_IGNORED when a hook is called (prev_never_seen, prev_run), a returned object with a destructor loses RAX (result_lost, result_lost_run), an object returned in a register is not kept (object_in_register_lost)."},
 {"property": "C66", "status": "partial", "theorems": ["Verif.Jit.accepts_iff", "Verif.Jit.autoDetect_only", "Verif.Jit.autoDetect_register", "Verif.Jit.autoDetect_memory", "Verif.Jit.autoDetect_said", "Verif.Jit.object_always_memory", "Verif.Jit.vafmt_dropped"], "note": "The decision and the classification are proved outright. Partial because the code departs from its purpose for functions with variable arguments: vafmt_dropped shows that they are taken and their hooks called without the formatted text."},
 {"property": "C67", "status": "partial", "theorems": ["Verif.SH.Mfp.gcc_virtual", "Verif.SH.Mfp.gcc_injective", "Verif.SH.Mfp.gcc_plain", "Verif.SH.Mfp.gcc_entry", "Verif.SH.Mfp.msvc_virtual", "Verif.SH.Mfp.msvc_jump_partial", "Verif.SH.Mfp.msvc_jump_back", "Verif.SH.Mfp.msvc_jump_back_unmapped", "Verif.SH.Mfp.msvc_plain", "Verif.SH.Mfp.msvc4_counts_twice", "Verif.SH.Mfp.msvc2_entry", "Verif.SH.Mfp.msvc_loads"], "note": "Complete for the Itanium representation. For MSVC, jumps forwards are followed and single and multiple inheritance are right. Two departures are proved: a jump backwards is followed to an address 4 GiB too high (msvc_jump_back, msvc_jump_back_unmapped) and with unknown inheritance the base offset is counted twice (msvc4_counts_twice)."},
 {"property": "C68", "status": "proved", "theorems": ["Verif.Util.libraryInfo_spec", "Verif.Util.ranges_inside", "Verif.Util.findPatternIn_spec", "Verif.Util.libraryInfo_empty", "Verif.Util.libraryInfo_other", "Verif.Util.libraryInfo_sound"], "note": "Linux, x86-64. The contract of the system's loader (Loaded: pages of readable segments are mapped) and dladdr are trusted. The last possible position of a range is not searched: see C41, findPattern_misses_last."},
 {"property": "C69", "status": "partial", "theorems": ["Verif.Prov.jump_reaches", "Verif.Prov.cache_exact", "Verif.Prov.cache_far", "Verif.Prov.find_first", "Verif.Prov.get_iff", "Verif.Prov.find_get", "Verif.Prov.unsupported"], "note": "On 64-bit machines a detour more than 2 GiB away is not reached (cache_far)."},
 {"property": "C70", "status": "partial", "theorems": ["Verif.Prov.Cmd.unregister_exact", "Verif.Prov.Cmd.register_front", "Verif.Prov.Cmd.register_unregister", "Verif.Prov.Cmd.removeMine_exact", "Verif.Prov.Cmd.run_exact", "Verif.Prov.Cmd.register_again_cuts", "Verif.Prov.Cmd.init_without_symbol", "Verif.Prov.Cmd.init_address", "Verif.Prov.Cmd.unknown_keeps"], "note": "Commands must not be registered twice (register_again_cuts); a missing symbol counts as success (init_without_symbol)."},
 {"property": "C71", "status": "partial", "theorems": ["Verif.Prov.S2.follows_engine", "Verif.Prov.S2.init_follows", "Verif.Prov.S2.shutdown_clears", "Verif.Prov.S2.paths_exact", "Verif.Prov.S2.paths_gone", "Verif.Prov.S2.paths_all_lost", "Verif.Prov.S2.no_filesystem_faults", "Verif.Prov.S2.no_services_faults", "Verif.Prov.S2.create_null_faults", "Verif.Prov.S2.override_not_followed", "Verif.Prov.S2.late_destroy_stays", "Verif.Prov.S2.shutdown_leaves", "Verif.Prov.S2.init_gives_up"], "note": "For orderly event sequences; the departures are theorems."},
 {"property": "C72", "status": "proved", "theorems": ["Verif.SH.Pi.builder_exact", "Verif.SH.Pi.stale_iff", "Verif.SH.Pi.seventh_stale", "Verif.SH.Pi.builder_reflexive"], "note": "When the pointer handed out dangles is part of the property (stale_iff)."},
 {"property": "C73", "status": "partial", "theorems": ["Verif.Jit32.roundTrip", "Verif.Jit32.reads", "Verif.Jit32.callRm_jumps", "Verif.Jit32.imulImm_eax", "Verif.Jit32.fstpAuto_swallows", "Verif.Jit32.auto_truncates", "Verif.Jit32.auto_ebp_absolute", "Verif.Jit32.esp_base", "Verif.Jit32.movzx16_prefixed"], "note": "The full statement is roundTrip without the hypothesis Op.Fits. It is false of the code: the other theorems show what the excluded calls write. Op.Fits excludes exactly: ESP as base without SIB byte, EBP with mode 0, displacements outside the byte the Auto functions write, IA32_Call_Rm, IA32_IMul_Reg_Imm8/32 on a register other than EAX."},
 {"property": "C74", "status": "proved", "theorems": ["Verif.Jit32.pub_null", "Verif.Jit32.pub_info", "Verif.Jit32.pub_aligned"], "note": "GCC/Linux form of the function"},
 {"property": "C75", "status": "proved", "theorems": ["Verif.Jit32.accepts_iff", "Verif.Jit32.autoDetect_only", "Verif.Jit32.forceRef_bits", "Verif.Jit32.autoDetect_register", "Verif.Jit32.autoDetect_memory", "Verif.Jit32.autoDetect_said", "Verif.Jit32.autoDetect_object", "Verif.Jit32.totalSize_eq", "Verif.Jit32.totalSize_small", "Verif.Jit32.totalSize_wraps", "Verif.Jit32.alignBytes_spec", "Verif.Jit32.alignBytes_sixteen", "Verif.Jit32.frame_packed", "Verif.Jit32.frame_apart", "Verif.Jit32.odd_size_not_pushed", "Verif.Jit32.large_in_registers", "Verif.Jit32.varArgs_as_vafmt", "Verif.Jit32.vafmt_without_list", "Verif.Jit32.copied_object_in_place"], "note": "GCC/Linux branches; departures: parameters of other sizes are accepted but not pushed, large objects in registers are not kept, plain variable arguments are treated as a format"},
 {"property": "C76", "status": "partial", "theorems": ["Verif.Jit32.hook_function_partial", "Verif.Jit32.accepted_hookOk", "Verif.Jit32.destructor_result_returned", "Verif.Jit32.pointer_copied_for_object", "Verif.Jit32.copy_of_pointer_unaligned", "Verif.Jit32.quiet32_bits", "Verif.Jit32.quiet64_bits", "Verif.Jit32.float_arrives", "Verif.Jit32.signalling_nan_altered"], "note": "hook_function_partial: for every prototype within HookOk, machine state and callee behaviour, the generated bytes simulate the C program Spec.hookFunction call for call and return. accepted_hookOk: accepted prototypes that are Plain are within HookOk. Missing because the code does otherwise: by-value objects with a destructor or copy constructor (the copy is made of the pointer, the destructor overwrites EAX before the result is kept, the copy constructor is called with an unaligned stack). Also outside: 32 KB of parameters, vtblOffs below -128."},
 {"property": "C77", "status": "partial", "theorems": ["Verif.Core.Br.load_takes_lowest", "Verif.Core.Br.failed_load_does_nothing", "Verif.Core.Br.load_hooks", "Verif.Core.Br.load_gamedll", "Verif.Core.Br.dllInit_hooks", "Verif.Core.Br.description_of", "Verif.Core.Br.refusal_ends_partial", "Verif.Core.Br.refusal_ends_init_partial", "Verif.Core.Br.unload_removes_partial", "Verif.Core.Br.plugin_unload_refused_partial", "Verif.Core.Br.gamedll_stays", "Verif.Core.Br.shutdown_removes_all", "Verif.Core.Br.nested_unload_allowed", "Verif.Core.Br.changed_command_keeps_hooks", "Verif.Core.Br.shutdown_in_unload_keeps_refusal", "Verif.Core.Br.failed_load_describes", "Verif.Core.Br.clients_search_loses", "Verif.Core.Br.failed_load_renames", "Verif.Core.Br.missing_engine_faults"], "note": "The refusal and the removal of hooks hold if plugin_unload is not run inside itself, is always the same command and the game does not shut down inside it; the departures are theorems."},
 {"property": "C78", "status": "partial", "theorems": ["Verif.Core.Src.initial_sources", "Verif.Core.Src.reload_sources", "Verif.Core.Src.same_every_level", "Verif.Core.Src.no_backslash", "Verif.Core.Src.below_fits", "Verif.Core.Src.reload_null_iff", "Verif.Core.Src.created_usable", "Verif.Core.Src.default_stands_in", "Verif.Core.Src.version_shown", "Verif.Core.Src.flags_mapped", "Verif.Core.Src.engine_directory", "Verif.Core.Src.engine_bare", "Verif.Core.Src.command_leads_partial", "Verif.Core.Src.command_relative", "Verif.Core.Src.command_cut", "Verif.Core.Src.argument_is", "Verif.Core.Src.command_line_once", "Verif.Core.Src.empty_variable_faults", "Verif.Core.Src.default_lost", "Verif.Core.Src.no_realpath_faults", "Verif.Core.Src.no_engine_file_faults", "Verif.Core.Src.quote_ends_argument", "Verif.Core.Src.version_flags"], "note": "The lists are as stated for all inputs; that the place named on the command line is not used at the end of a level, and that an empty variable of Source 2 is undefined behaviour there, are theorems. The command is proved for paths that fit the array and have no doubled separators; command_cut says what long paths come to."},
 {"property": "C79", "status": "partial", "theorems": ["Verif.Cmds.printed", "Verif.Cmds.same_for_all", "Verif.Cmds.player_answered", "Verif.Cmds.player_other", "Verif.Cmds.player_unanswered", "Verif.Cmds.console_words", "Verif.Cmds.console_no_words", "Verif.Cmds.console_unanswered", "Verif.Cmds.console_answered", "Verif.Cmds.info_told", "Verif.Cmds.info_rest", "Verif.Cmds.info_read", "Verif.Cmds.info_reads_unwritten", "Verif.Cmds.info_null_faults", "Verif.Cmds.plugin_log_partial", "Verif.Cmds.query_found", "Verif.Cmds.query_unknown", "Verif.Cmds.query_running", "Verif.Cmds.query_self_unwritten", "Verif.Cmds.query_no_room"], "note": "a log message of a plugin is whole only up to 2045 bytes with its tag; asking for the status of the plugin being loaded, and meta info for a plugin that says it does not run without saying why, read what was never written"},
 {"property": "C80", "status": "proved", "theorems": ["Verif.Maps.text_refines", "Verif.Maps.bits_told", "Verif.Maps.bits_unmapped", "Verif.Maps.module_told", "Verif.Maps.writable_refines", "Verif.Maps.slot_writable"], "note": "The kernel format is the specification (Mapping.line, fileOf). Findings: module_two_mappings, module_unreadable, module_around, cut_line_reads_past."},
 {"property": "C81", "status": "partial", "theorems": ["Verif.Loader.adapted_fits", "Verif.Loader.table_once_partial", "Verif.Loader.first_load_fits", "Verif.Loader.second_load_shifts"], "note": "Holds until the callbacks are used a second time. Missing: the fit after every Load, which is false (second_load_shifts: after a failed Load the next one shifts the table again). The layouts of the engines are the specification (Backend.callbacks)."},
 {"property": "C82", "status": "partial", "theorems": ["Verif.Gen.takes64_accepts", "Verif.Gen.takes32_accepts", "Verif.Gen.generators_defined", "Verif.Gen.built_read_back", "Verif.Gen.answer_fits", "Verif.Gen.compat64", "Verif.Gen.compat32_iff", "Verif.Gen.forced_incompatible", "Verif.Gen.frames_laid_out", "Verif.Gen.memory32", "Verif.Gen.all_freed32", "Verif.Gen.released64_leaks", "Verif.Gen.clear_again", "Verif.Gen.delete_checked"], "note": "Everything is proved for both generators except: the 64-bit destructor leaves two arrays behind (released64_leaks: for every state and whatever follows), and with 32 bits and GCC the prototype handed over is compatible with the request exactly if no object with a destructor is passed by value (compat32_iff)."},
 {"property": "C83", "status": "partial", "theorems": ["Verif.Prov.Con.hidden_iff", "Verif.Prov.Con.other_flags_kept", "Verif.Prov.Con.cmd_callbacks", "Verif.Prov.Con.var_state", "Verif.Prov.Con.listed_iff_shown_partial", "Verif.Prov.Con.unload_hides_partial", "Verif.Prov.Con.register_shows", "Verif.Prov.Con.unload_unlinks_partial", "Verif.Prov.Con.base_round_trip", "Verif.Prov.Con.base_kind", "Verif.Prov.Con.new_flags", "Verif.Prov.Con.own_freed", "Verif.Prov.Con.base_source2", "Verif.Prov.Con.register_reveals", "Verif.Prov.Con.unlink_register_stays", "Verif.Prov.Con.shutdown_twice"], "note": "Partial where listeners told of an unlinked command or variable register or unregister themselves (unlink_register_stays shows that the claim then fails), and for commands that several plugins register."},
 {"property": "C84", "status": "partial", "theorems": ["Verif.Shw.expr_value", "Verif.Shw.expr_only", "Verif.Shw.expand_partial", "Verif.Shw.params_listed", "Verif.Shw.iter_blanks", "Verif.Shw.unclosed_fails"], "note": "The expression parser is characterised exactly. Templates: up to ten non-negative arguments, separators without directives, and texts whose parts can be told apart (Tm.WF); the remaining cases misbehave (see the findings neq_with_eq, eleven_arguments, negative_rejected, max_overflows, inner_error_lost)."},
 {"property": "C85", "status": "partial", "theorems": ["Verif.Deleg.calls_bound", "Verif.Deleg.equal_iff_bound", "Verif.Deleg.empty_iff_bound", "Verif.Deleg.compilers_ok", "Verif.Deleg.equal_calls_same", "Verif.Deleg.handler_key", "Verif.Deleg.less_order", "Verif.Deleg.ms_bind", "Verif.Deleg.ms_equal_iff_call", "Verif.Deleg.itanium_two_names", "Verif.Deleg.static_compare_never", "Verif.Deleg.null_equal_less", "Verif.Deleg.null_not_empty", "Verif.Deleg.itanium_bind"], "note": "Everything is proved for both compilers. Partial because of what the header does otherwise: comparing a delegate with a plain function is never true (static_compare_never), with the Itanium ABI one function named through two classes makes two different handlers (itanium_two_names), null pointers to members are not empty and can be both equal and less, and unknown inheritance does not compile (ms_bind)."},
 {"property": "C86", "status": "proved", "theorems": ["Verif.Jit.Rule.hook_rule", "Verif.Jit.Rule.orig_called_iff", "Verif.Jit.Rule.orig_value", "Verif.Jit.Rule.status_highest", "Verif.Jit.Rule.override_last"], "note": "For functions that return nothing, a number, a pointer or a reference; the called functions keep the promises of Jit/RuleSpec.lean."},
 {"property": "C87", "status": "proved", "theorems": ["Verif.Jit32.Rule.hook_rule", "Verif.Jit32.Rule.orig_called_iff", "Verif.Jit32.Rule.orig_value", "Verif.Jit32.Rule.status_highest", "Verif.Jit32.Rule.override_last"], "note": "For results copied as bytes (no special functions); the called functions keep the promises of Jit32/RuleSpec.lean."},
 {"property": "C88", "status": "proved", "theorems": ["Verif.Jit32.Class.class_results", "Verif.Jit32.Class.objects_live", "Verif.Jit32.Class.places_nodup", "Verif.Jit32.Class.unconstructed_assigned", "Verif.Jit32.Class.live_refuses"], "note": "For classes with constructor, copy constructor, assignment operator and destructor returned in memory; a class without default constructor is accepted and breaks the rule (unconstructed_assigned)."},
 {"property": "C89", "status": "partial", "theorems": ["Verif.Jit.Class.class_results_partial", "Verif.Jit.Class.objects_live", "Verif.Jit.Class.places_nodup", "Verif.Jit.Rule.parameter_destroyed_again", "Verif.Jit.Class.live_refuses"], "note": "The calls, the lives of the objects and the value are proved for classes with constructor, copy constructor, assignment operator and destructor; RAX is not the address of the object but what the last destructor left (stated in the theorem), and objects passed by value are destroyed once per function called and once more (parameter_destroyed_again)."},
 {"property": "C90", "status": "partial", "theorems": ["Verif.Cont.list_copy", "Verif.Cont.list_assign", "Verif.Cont.list_self_emptied", "Verif.Cont.stack_copy_partial", "Verif.Cont.stack_assign_partial", "Verif.Cont.stack_copy_reads_unset", "Verif.Cont.stack_self_broken", "Verif.Cont.hash_copy", "Verif.Cont.hash_assign", "Verif.Cont.hash_self_emptied", "Verif.Cont.hash_copy_overcounts", "Verif.CStr.string_copy", "Verif.CStr.string_assign", "Verif.CStr.string_self_overlaps"], "note": "Proved for copies to another object. Self-assignment violates the claim: lists and hash tables are emptied, a stack loses its sectors but not its size, a string calls strcpy on overlapping arrays. Copying a stack of a type without default constructor reads elements never assigned."},
 {"property": "C91", "status": "proved", "theorems": ["Verif.Alike.agree64", "Verif.Alike.handlers_agree64", "Verif.Alike.agree32", "Verif.Alike.handlers_agree32"], "note": "Composition of C06 with C86 and C87 (Verif/Jit/Alike.lean): for results without special functions; META_RESULT_PREVIOUS of the generated functions is not compared."},
 {"property": "C92", "status": "partial", "theorems": ["Verif.KvFile.kv_whole_partial", "Verif.KvFile.kv_missing", "Verif.KvFile.kv_ok_iff", "Verif.KvFile.kv_short_read", "Verif.KvFile.kv_negative_size", "Verif.KvFile.vdf_no_fs", "Verif.KvFile.vdf_balanced", "Verif.KvFile.vdf_provides", "Verif.KvFile.vdf2_same", "Verif.KvFile.vdf2_balanced", "Verif.KvFile.vdf2_outcome"], "note": "For file systems that deliver what Size says; the code looks neither at the result of Read nor at the sign of Size (kv_short_read, kv_negative_size)."},
 {"property": "C93", "status": "proved", "theorems": ["Verif.Jit.Plain.plain_status", "Verif.Jit.Plain.plain_override", "Verif.Jit.Plain.plain_orig_iff", "Verif.Jit.Plain.plain_results"], "note": "For structures without special functions returned in memory, with the calling convention of the modelled generator; the place the caller names is assumed to lie outside the frame of the hook function."},
 {"property": "C94", "status": "proved", "theorems": ["Verif.Page.win_bits", "Verif.Page.win_access", "Verif.Page.win_slot", "Verif.Page.mac_bits", "Verif.Page.mac_slot", "Verif.Page.win_widened", "Verif.Page.win_modifier_lost", "Verif.Page.mac_unmapped", "Verif.Page.mac_writable_nothing"], "note": "For committed pages without modifiers and for mapped addresses; the last four theorems say what happens otherwise. The functions of the operating systems are modelled from their documentation."},
 {"property": "C95", "status": "partial", "theorems": ["Verif.Page.linux_trap_partial", "Verif.Page.linux_trap_exact", "Verif.Page.linux_later_fault", "Verif.Page.mac_trap_exact", "Verif.Page.mac_trap_answers", "Verif.Page.mac_later_fault"], "note": "The property is violated: on Linux every answer is inverted, and on both systems a call about unreadable memory leaves BadReadHandler in place (and on Linux the signal blocked), so later faults do not reach the process' handlers. Exactly what happens is proved for all sequences of calls."},
 {"property": "C96", "status": "proved", "theorems": ["Verif.Alike.agree64_plain", "Verif.Alike.handlers_agree64_plain", "Verif.Alike.agree64_class", "Verif.Alike.handlers_agree64_class", "Verif.Alike.handlers_agree64_class_post", "Verif.Alike.agree32_class", "Verif.Alike.handlers_agree32_class", "Verif.Alike.handlers_agree32_class_post"], "note": "Under C91 hypotheses (no recall, ShouldCallOrig does not refuse). In 64-bit code the address of an object with special functions is not in RAX on return (finding of C89); that is not part of this claim."},
 {"property": "C97", "status": "proved", "theorems": ["Verif.Jit32.Rule.prev_rule", "Verif.Alike.prev_agrees32", "Verif.Jit.Rule.prev_rule", "Verif.Alike.prev_agrees64_iff"], "note": "For functions whose result is copied as bytes (Simple, as C86, C87, C91). The 64-bit part is the consequence for whole calls of the departure found in C65 (prev_never_seen)."},
 {"property": "C98", "status": "partial", "theorems": ["Verif.CurMap.bits_told_partial", "Verif.CurMap.bits_unmapped", "Verif.CurMap.bits_exact_iff", "Verif.CurMap.bits_stale", "Verif.CurMap.module_told", "Verif.CurMap.slot_page_partial", "Verif.CurMap.other_text_ub"], "note": "ModuleInMemory is exact for every file as the kernel writes it. GetPageBits finds the right mapping but never tells of writing or executing; bits_exact_iff says where it is exact, bits_stale what a mapping without an object gets, slot_page_partial that the page loses the right to execute. The form of the file is taken from the comment in the code and the printf of the FreeBSD kernel."},
 {"property": "C99", "status": "proved", "theorems": ["Verif.Hopter.template_filled", "Verif.Hopter.file_filled", "Verif.Hopter.file_open", "Verif.Hopter.other_blanks_stay", "Verif.Hopter.no_number_ub"], "note": "template_filled for one block and one number of parameters, file_filled for whole files; lines are at most 4998 characters and their end, which is what the buffer holds. other_blanks_stay shows what is not tidied up, no_number_ub when main has undefined behaviour."},
 {"property": "C100", "status": "proved", "theorems": ["Verif.SH.TakeBack.taken_back", "Verif.SH.TakeBack.no_trace", "Verif.SH.TakeBack.samples_no_trace", "Verif.SH.TakeBack.class_hook_not_taken_back", "Verif.SH.TakeBack.unread_prototype_not_taken_back", "Verif.SH.TakeBack.metamod_no_trace", "Verif.SH.TakeBack.source_leaves_command_hook"], "note": "Additions in mode Hook_Normal through a hook manager whose prototype has a known version, all by one plugin; outside of that two findings are proved."},
 {"property": "C101", "status": "proved", "theorems": ["Verif.Build.groups_iff", "Verif.Build.refused_iff", "Verif.Build.productVersion_agrees", "Verif.Build.version_text", "Verif.Build.version_determines", "Verif.Build.header_values", "Verif.Build.package_named", "Verif.Build.manual_numbers", "Verif.Build.package_of_other_release", "Verif.Build.plus_tag_collides", "Verif.Build.quote_cuts_tag"], "note": "The last three theorems are findings at the edges of the conditions stated: a tag such as dev2 gives the package the name of another release, a tag with a plus sign gives the version text of a dev build, a quote in the tag cuts it short. The package names are modelled for Linux."},
 {"property": "C102", "status": "proved", "theorems": ["Verif.Prov.Eng.number_right", "Verif.Prov.Eng.unknown_refused", "Verif.Prov.Eng.numbers_distinct", "Verif.Prov.Eng.text_right", "Verif.Prov.Eng.text2_right", "Verif.Prov.Eng.detected_reported", "Verif.Prov.Eng.shared_number_misreported", "Verif.Prov.Eng.newer_clients_not_hooked", "Verif.Prov.Eng.original_iff"], "note": "That the SDKs number the engines differently is a hypothesis, which shared_number_misreported shows to be needed; which library is built with which SDK is an assumption (the manifests are not in /repo). newer_clients_not_hooked is a finding."},
 {"property": "C103", "status": "proved", "theorems": ["Verif.Sample.load_true_iff", "Verif.Sample.load_fails", "Verif.Sample.load_fails_silently", "Verif.Sample.samples_hook_right", "Verif.Sample.samples_listen", "Verif.Sample.command_superseded_iff", "Verif.Sample.handlers_leave_none", "Verif.Sample.command_shows", "Verif.Sample.menu_items", "Verif.Sample.settings_print_iff", "Verif.Sample.name_change_reversed", "Verif.Sample.samples_unloadable"], "note": "name_change_reversed is a finding: the comparison is the wrong way round. The factories, the SDK texts and the engine calls are parameters; the contents of dialogs other than the menu items are not modelled."},
 {"property": "C104", "status": "partial", "theorems": ["Verif.Fatal.render_ok_iff", "Verif.Fatal.calls_defined", "Verif.Fatal.render_places", "Verif.Fatal.header_determines", "Verif.Fatal.logFatal_spec", "Verif.Fatal.entry_one_line", "Verif.Fatal.log_in_order", "Verif.Fatal.load_reported_partial", "Verif.Fatal.error_unwritten", "Verif.Fatal.fail_iff", "Verif.Fatal.log_kept", "Verif.Fatal.number_round_trip"], "note": "All of it; load_reported_partial needs a loader that knows its own path with a slash and a log name that fits. Finding: otherwise the message is made from an uninitialised array (error_unwritten, exactly then by fail_iff)."},
 {"property": "C105", "status": "partial", "theorems": ["Verif.Dedi.allowed_once_partial", "Verif.Dedi.all_put_back", "Verif.Dedi.requested_twice_null", "Verif.Dedi.requested_twice_stops", "Verif.Dedi.other_object_null"], "note": "Proved for requests that do not overtake the call of an earlier one. Findings: requested_twice_null, other_object_null."},
 {"property": "C106", "status": "partial", "theorems": ["Verif.SH.Manual.reconfigured", "Verif.SH.Manual.added_at_new_slot", "Verif.SH.Manual.same_slot_iff", "Verif.SH.Manual.this_offset_ignored", "Verif.SH.Manual.mcall_this_unadjusted", "Verif.SH.Manual.reconfigure_leaves", "Verif.SH.Manual.slots_as_given"], "note": "Everything is proved; partial because the this offset is ignored by adding and removing (this_offset_ignored), SH_MCALL passes an unadjusted this (mcall_this_unadjusted) and hooks stay where another plugin hooks the same function (reconfigure_leaves)."},
 {"property": "C107", "status": "proved", "theorems": ["Verif.Cont.findAlt_any", "Verif.Cont.alt_step", "Verif.Cont.alt_refines", "Verif.Cont.alt_hash_needed"], "note": "All statements proved; HashAlt, CompareAlt and the conversion are parameters."},
 {"property": "C108", "status": "partial", "theorems": ["Verif.Search.targets_default", "Verif.Search.targets_given", "Verif.Search.unknown_arch_name_error", "Verif.Search.climb_nearest", "Verif.Search.findSdk_order", "Verif.Search.variable_hides", "Verif.Search.generator_linked"], "note": "Everything is proved; partial because the message for an unknown architecture is never produced (unknown_arch_name_error) and a variable that names no directory hides an SDK (variable_hides)."},
 {"property": "C109", "status": "partial", "theorems": ["Verif.Package.core_packed", "Verif.Package.loader_packed", "Verif.Package.loader_finds_core", "Verif.Package.backends_apart", "Verif.Package.no_overwriting", "Verif.Package.own_name", "Verif.Package.mac_undefined", "Verif.Package.vdf_names_loader", "Verif.Package.vdf_dangling", "Verif.Package.deduced_wrong"], "note": "Everything is proved for Linux and Windows; partial because the loader does not compile for macOS (mac_undefined), metamod.vdf can name a missing library (vdf_dangling) and an SDK can be taken for another (deduced_wrong)."},
 {"property": "C110", "status": "partial", "theorems": ["Verif.Plugin.sdk_recovered", "Verif.Plugin.plugin_where_named", "Verif.Plugin.outputs_distinct", "Verif.Plugin.vdf_read_back", "Verif.Plugin.two_targets_collide"], "note": "Everything is proved; partial because SDKs built for two targets of one platform collide (two_targets_collide), so the claim holds for one target per SDK only."},
 {"property": "C111", "status": "partial", "theorems": ["Verif.PluginVersion.version_filled", "Verif.PluginVersion.tag_recovered", "Verif.PluginVersion.tag_alone", "Verif.PluginVersion.hashes_recovered", "Verif.PluginVersion.gathered", "Verif.PluginVersion.git_failed", "Verif.PluginVersion.no_repository", "Verif.PluginVersion.tag_misread", "Verif.PluginVersion.filled_twice"], "note": "Everything is proved; partial because places for the tag are errors outside a repository (no_repository), tags can be taken apart (tag_misread) and values with braces are filled again (filled_twice)."},
 {"property": "C112", "status": "proved", "theorems": ["Verif.Metadata.user_first", "Verif.Metadata.written_iff", "Verif.Metadata.file_current", "Verif.Metadata.second_run"], "note": "The file is the dictionary in it; reading and writing JSON is trusted."},
 {"property": "C113", "status": "partial", "theorems": ["Verif.GitHead.branch_watched", "Verif.GitHead.detached_watched", "Verif.GitHead.sample_notices", "Verif.GitHead.main_notices_partial", "Verif.GitHead.long_hash_fails", "Verif.GitHead.switch_missed", "Verif.GitHead.packed_missed"], "note": "Proved for the sample in repositories where the branch has a file of its own or HEAD is a hash, and for Metamod if HEAD stays as it is. Findings: the header of Metamod is not made anew when the branch is switched; neither notices a commit on a branch packed at configuration; 64-digit hashes fail."},
 {"property": "C114", "status": "proved", "theorems": ["Verif.Bootstrap.prepared", "Verif.Bootstrap.configured_kept", "Verif.Bootstrap.outside_kept", "Verif.Bootstrap.fails_iff", "Verif.Bootstrap.environment"], "note": "Links that lead nowhere, permissions and other processes are not modelled."}
]}
