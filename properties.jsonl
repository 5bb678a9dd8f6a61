{"id": "C01", "title": "Live hook IDs are unique and positive", "statement": "AddHook returns 0 on failure and otherwise a positive ID that no other currently registered hook has; from then until that hook is removed every by-ID operation with this ID addresses exactly this hook (its plugin, object, offset, handler and pre/post side as given to AddHook).", "quantifier": "every sequence of AddHook/RemoveHook/RemoveHookByID/Pause/UnloadPlugin/RemoveHookManager calls, interleaved with any running hook loops", "why_tests_cant": "IDs are recycled, so uniqueness is a property of whole add/remove histories of unbounded length", "anchors": ["core/sourcehook/sourcehook.cpp:AddHook", "core/sourcehook/sourcehook_impl_chookidman.cpp:CHookIDManager::New,Remove,QueryHook"]}
{"id": "C02", "title": "RemoveHookByID removes exactly the named hook", "statement": "RemoveHookByID(id) returns true exactly when id names a registered hook; afterwards that ID is unknown, the hook's handler has been deleted, and every other registered hook is untouched (same ID, owner, side, relative order, paused flag). A false return changes nothing.", "quantifier": "every reachable registry state, every integer id (including 0, negative and never-issued ids)", "why_tests_cant": "must hold for every registry shape, including those where the removal empties an object's or function's hook list", "anchors": ["core/sourcehook/sourcehook.cpp:RemoveHookByID", "core/sourcehook/sourcehook_impl_chookidman.cpp"]}
{"id": "C03", "title": "Call order of hooks", "statement": "When a hooked function is called and the hooks on it do not change during the call, the handlers invoked before the original are exactly the unpaused pre hooks on that object in the order they were added, followed by the unpaused vtable-wide (VP) pre hooks in the order they were added; after the original, the same for post hooks. No handler of another object or another function is invoked.", "quantifier": "every set of hooks (any number), any this-pointer, any paused subset", "why_tests_cant": "quantifies over all hook lists of any length and all add histories that lead to them", "anchors": ["core/sourcehook/sourcehook.cpp:CHookContext::GetNext,AddHook", "core/sourcehook/sourcehook_impl_cvfnptr.cpp:GetIface,FindIface", "core/sourcehook/sourcehook.h (SH_HANDLEFUNC macros)"]}
{"id": "C04", "title": "No handler runs twice or out of order, even when hooks change during the call", "statement": "During one call of a hooked function, in each of the four groups (object pre, VP pre, object post, VP post) the invoked hooks appear in strictly increasing order of registration - hence none is invoked twice - whatever hooks handlers (or anything they call, at any nesting depth) add, remove, pause or unpause meanwhile; a hook already removed when its turn comes is not invoked.", "quantifier": "every interleaving of registry operations with the steps of any number of nested running hook loops", "why_tests_cant": "needs every schedule of re-entrant modifications; a test can only try a few", "anchors": ["core/sourcehook/sourcehook.cpp:CHookContext::GetNext,HookRemoved,RemoveHookByID,AddHook"]}
{"id": "C05", "title": "No hook is skipped", "statement": "A hook that is registered and unpaused from the start of its group until the group ends, while its object keeps at least one hook throughout, is invoked during that call, whatever other hooks are added, removed or paused meanwhile.", "quantifier": "every interleaving of registry operations with the steps of nested hook loops", "why_tests_cant": "the iterator is moved back on removal; that no neighbour is skipped must hold for every removal pattern, including the first, last, only and currently running element", "anchors": ["core/sourcehook/sourcehook.cpp:CHookContext::GetNext,HookRemoved,RemoveHookByID"]}
{"id": "C06", "title": "Result aggregation: status, original call and return value", "statement": "For one call of a hooked function without recalls: the original is called exactly once if every pre handler's result is below SUPERCEDE and not at all otherwise; the value returned to the caller is the value of the last handler (pre or post) that returned OVERRIDE or SUPERCEDE, or the original's value when there is none; META_RESULT_STATUS seen by a handler is the maximum result of all handlers run before it in the call; META_RESULT_PREVIOUS is the result of the previous handler in the same phase (IGNORED for the first).", "quantifier": "every number of handlers, every result/value they return, any nesting", "why_tests_cant": "ranges over all sequences of results of any length", "anchors": ["core/sourcehook/sourcehook.h (SH_HANDLEFUNC macros): SH_SETUPCALLS, SH_CALL_HOOKS, SH_CALL_ORIG, SH_RETURN", "core/sourcehook/sourcehook.cpp:SetupHookLoop,GetStatus,GetPrevRes,SetRes"]}
{"id": "C07", "title": "Pausing", "statement": "A hook that is paused when its turn comes is never invoked; unpausing restores it at its old position. PauseHookByID/UnpauseHookByID return true exactly for registered IDs and change only that hook's paused flag; PausePlugin(p)/UnpausePlugin(p) set the flag of all and only the hooks owned by p. Pausing twice equals pausing once.", "quantifier": "every reachable registry state, every plugin and id, with hook loops running or not", "why_tests_cant": "all registries and all schedules of pause/unpause relative to running loops", "anchors": ["core/sourcehook/sourcehook.cpp:SetHookPaused,PausePlugin,UnpausePlugin", "core/sourcehook/sourcehook_impl.h:SkipPaused"]}
{"id": "C08", "title": "Vtable slots are patched exactly while hooked and restored afterwards", "statement": "A vtable slot holds a hook function exactly while at least one hook is registered on it; when its last hook is removed it again holds the value it had when it was first hooked, and no other memory word is ever changed. GetOrigVfnPtrEntry returns that original value while hooked and NULL otherwise.", "quantifier": "every sequence of registry operations by any number of plugins (memory not written by anybody else, module still mapped)", "why_tests_cant": "restoration must survive every order of adding/removing hooks and hook managers", "anchors": ["core/sourcehook/sourcehook_impl_cvfnptr.cpp:CVfnPtr,Patch,Revert,AddHookMan,HookManRemoved", "core/sourcehook/sourcehook.cpp:RevertAndRemoveVfnPtr,GetOrigVfnPtrEntry"]}
{"id": "C09", "title": "The hook manager with the highest version serves a function", "statement": "Among the hook managers that were offered for a vtable slot (one per plugin and public function, by AddHook) and have not been removed, the slot always holds the hook function of one with the highest version, and among those the one offered first.", "quantifier": "every sequence of AddHook/UnloadPlugin/RemoveHookManager with arbitrary versions", "why_tests_cant": "insertion-order/priority invariant over all histories", "anchors": ["core/sourcehook/sourcehook_impl_cvfnptr.cpp:AddHookMan,HookManRemoved"]}
{"id": "C10", "title": "Hook managers are registered exactly while in use", "statement": "The public function of a hook manager is told to store the manager when the first vtable slot starts being served by it and to forget it when the last one stops; whenever a slot holds its hook function, the manager is stored and knows the slot, so a call through the slot never reaches the 'hook exists but is not in our db' failure.", "quantifier": "every sequence of registry operations", "why_tests_cant": "reference counting over unbounded histories of switches between managers", "anchors": ["core/sourcehook/sourcehook_impl_chookmaninfo.cpp:IncrRef,DecrRef,Register,Unregister", "core/sourcehook/sourcehook_impl_cvfnptr.cpp:AddHookMan,HookManRemoved,~CVfnPtr", "core/sourcehook/sourcehook.cpp:SetupHookLoop"]}
{"id": "C11", "title": "SH_CALL bypasses hooks and leaves no trace", "statement": "Calling a function through SH_CALL invokes no hook handler of that function, calls the original exactly once, returns its value, and leaves the hook context stack as before; calls made by the original to other hooked functions still run their hooks.", "quantifier": "every context-stack state, every function hooked or not, every nesting", "why_tests_cant": "must hold for every nesting depth and every body of the called function", "anchors": ["core/sourcehook/sourcehook.h:ExecutableClassN", "core/sourcehook/sourcehook.cpp:SetIgnoreHooks,ResetIgnoreHooks,SetupHookLoop,EndContext"]}
{"id": "C12", "title": "Recall (RETURN_META_NEWPARAMS) continues the hook loop", "statement": "When a handler recalls the function with new parameters, the remaining hooks (those after it) run exactly as if the loop had continued, no hook of the call runs twice, the original is called at most once in total (only by a pre recall), the accumulated status carries over, and the outer loop runs no further handlers.", "quantifier": "every number of hooks, every handler position, recalls nested to any depth", "why_tests_cant": "unbounded recall depth and positions", "anchors": ["core/sourcehook/sourcehook.cpp:DoRecall,SetupHookLoop,GetNext", "core/sourcehook/sourcehook.h:RETURN_META_NEWPARAMS,RETURN_META_VALUE_NEWPARAMS"]}
{"id": "C13", "title": "Unloading a plugin removes all and only its hooks", "statement": "After UnloadPlugin(p) no registered hook and no hook manager belongs to p, and every hook of any other plugin is still registered with its ID, position and paused flag, and is still invoked by calls.", "quantifier": "every reachable registry state with any number of plugins sharing hooked functions", "why_tests_cant": "hook managers of the unloaded plugin may be serving other plugins' hooks; the hand-over must work in every configuration", "anchors": ["core/sourcehook/sourcehook.cpp:UnloadPlugin,RemoveHookManager", "core/sourcehook/sourcehook_impl_cvfnptr.cpp:HookManRemoved"]}
{"id": "C14", "title": "A plugin is never released while a hook loop is running, and exactly once", "statement": "The unload listener is notified exactly once per UnloadPlugin: at once if no hook loop or SH_CALL is active, otherwise not while any is active (unless forced), and at the latest when the context stack drains for the second time after the request.", "quantifier": "every schedule of unload requests, nested loops and stack drains", "why_tests_cant": "depends on the whole history of context pushes/pops", "anchors": ["core/sourcehook/sourcehook.cpp:UnloadPlugin,ResolvePendingUnloads,EndContext", "core/sourcehook/sourcehook_impl.h:PendingUnload"]}
{"id": "C15", "title": "Hook contexts are strictly nested", "statement": "Each call of a hooked function works on its own context from start to end; nested calls (of any hooked function, at any depth) restore the context stack exactly, and never change the outer call's accumulated status, original/override return value or position, except that hooks removed meanwhile are dropped from it.", "quantifier": "every properly nested execution of any depth", "why_tests_cant": "unbounded nesting; contexts live in recycled storage", "anchors": ["core/sourcehook/sourcehook.cpp:SetupHookLoop,EndContext", "core/sourcehook/sh_stack.h:CStack"]}
{"id": "C16", "title": "Running hook loops never touch freed hooks, objects or functions", "statement": "No step of a running hook loop dereferences a hook, per-object list or function record that has been freed by a removal made meanwhile.", "quantifier": "every interleaving of registry operations with steps of nested hook loops", "why_tests_cant": "use-after-free depends on the exact schedule; the allocator usually hides it from tests", "anchors": ["core/sourcehook/sourcehook.cpp:GetNext,RemoveHookByID,RemoveHookManager,HookRemoved,IfaceRemoved,VfnPtrRemoved"]}
{"id": "C17", "title": "Every handler delegate is deleted exactly once", "statement": "The handler given to a successful AddHook is deleted exactly once, at the moment its hook disappears (by RemoveHook*, UnloadPlugin, RemoveHookManager or shutdown), and not before.", "quantifier": "every sequence of registry operations", "why_tests_cant": "double deletes and leaks are history properties", "anchors": ["core/sourcehook/sourcehook.cpp:RemoveHookByID,RevertAndRemoveVfnPtr", "core/sourcehook/sourcehook_impl_ciface.h:~CIface"]}
{"id": "C18", "title": "Call-thunks for odd addresses are freed once and not while needed", "statement": "The thunk generated for an original function at an odd address is freed exactly once after its slot is unhooked, and not before every hook loop that may still call through it has ended.", "quantifier": "every schedule of unhooking relative to nested loops", "why_tests_cant": "depends on recycled context slots and on which loops were active at removal time", "anchors": ["core/sourcehook/sourcehook.cpp:RevertAndRemoveVfnPtr,EndContext,DoCleanupTaskAndDeleteIt", "core/sourcehook/sourcehook_impl_cvfnptr.cpp:GetCleanupTask", "core/sourcehook/sh_stack.h:make_next"]}
{"id": "C19", "title": "RemoveHook removes all matching hooks and nothing else", "statement": "RemoveHook returns true exactly if at least one registered hook has the same function slot description (prototype, vtable offset and index), object, plugin, offset, equal handler and side, and then exactly those hooks are gone.", "quantifier": "every reachable registry and every argument tuple", "why_tests_cant": "all registries, incl. duplicates of the same handler", "anchors": ["core/sourcehook/sourcehook.cpp:RemoveHook", "core/sourcehook/sourcehook_impl_chookidman.cpp:FindAllHooks"]}
{"id": "C20", "title": "The call thunk jumps to the original function", "statement": "For every odd original address and every thunk address the 12 generated bytes, executed as x86-64 code, transfer control to exactly the original address, fit the 12 allocated bytes, and the thunk address itself is even when the allocator returns even addresses.", "quantifier": "all pairs of 64-bit addresses", "why_tests_cant": "2^128 address pairs, boundary at +-2 GiB", "anchors": ["core/sourcehook/sourcehook_impl_cvfnptr.cpp:Init"]}
{"id": "C21", "title": "The linked list behaves as a sequence", "statement": "push_back, push_front, insert, erase, remove, clear, find, size, empty, front, back and forward/backward iteration of the list behave as on a mathematical sequence; erase returns the successor; iterators to other elements stay valid and the ring is well linked in both directions.", "quantifier": "every sequence of list operations of any length", "why_tests_cant": "pointer invariants over unbounded histories", "anchors": ["core/sourcehook/sh_list.h:List"]}
{"id": "C22", "title": "The sectored stack behaves as a LIFO and never moves elements", "statement": "push/make_next/pop/front/second/at/size behave as on a LIFO sequence for every depth, and an element's storage does not move while it is on the stack.", "quantifier": "every sequence of operations of any length and depth", "why_tests_cant": "sector boundary behaviour for unbounded depth", "anchors": ["core/sourcehook/sh_stack.h:CStack"]}
{"id": "C23", "title": "The vector behaves as a sequence", "statement": "push_back, pop_back on non-empty, resize, insert, erase, clear, at/operator[] and copy behave as on a sequence; size never exceeds the allocated capacity; no operation within its documented bounds accesses outside the allocation. Against expectation, inserting an own element that lies behind the place inserts the one before it, and pop_back on an empty vector makes its size the largest number.", "quantifier": "every sequence of operations", "why_tests_cant": "capacity bookkeeping over unbounded histories", "anchors": ["core/sourcehook/sh_vector.h:CVector"]}
{"id": "C24", "title": "The hash table behaves as a finite map", "statement": "insert/operator[]/find/erase/iteration of the hash table behave as a finite map for every hash function; growing the bucket array loses and duplicates nothing; iteration visits every entry exactly once.", "quantifier": "every hash function, every sequence of operations", "why_tests_cant": "all collision patterns and growth points", "anchors": ["core/sourcehook/sh_tinyhash.h:THash"]}
{"id": "C25", "title": "The executable page allocator hands out disjoint blocks", "statement": "Blocks returned by Alloc and not yet freed are pairwise disjoint, lie inside one mapped region, have the requested size and alignment; Free releases exactly one block, and a region is unmapped exactly when its last block is freed (isolated regions never shared).", "quantifier": "every sequence of Alloc/AllocIsolated/Free with any sizes", "why_tests_cant": "best-fit gap search over all allocation histories", "anchors": ["core/sourcehook/sh_pagealloc.h:CPageAlloc"]}
{"id": "C26", "title": "Plugin ids identify plugins", "statement": "At any time no two plugins in the plugin list have the same id; ids are >= 1 and an id is not reused for a different plugin while hooks owned by it can still exist.", "quantifier": "every sequence of Load/Unload/Pause/Unpause/Retry/UnloadAll, incl. re-entrant calls from plugin callbacks", "why_tests_cant": "id reclaim on retry interacts with arbitrary histories and re-entrancy", "anchors": ["core/metamod_plugins.cpp:_Load,Retry,_Unload,FindById"]}
{"id": "C27", "title": "A plugin file is loaded at most once", "statement": "At any time at most one loaded (running or paused) plugin has a given path up to path equality; Load of an already loaded file returns its id, reports 'already' and has no other effect.", "quantifier": "every sequence of plugin manager operations", "why_tests_cant": "history property", "anchors": ["core/metamod_plugins.cpp:Load", "core/metamod_util.cpp:UTIL_PathCmp"]}
{"id": "C28", "title": "Plugin status follows the documented life cycle", "statement": "A plugin's status changes only: load -> running or one of the failure states; running -> paused by Pause when the plugin agrees; paused -> running by Unpause when the plugin agrees; it leaves the list by Unload when the plugin agrees or force is set. Failed operations leave the status unchanged; hooks owned by the plugin are paused exactly while it is paused through the manager.", "quantifier": "every sequence of operations and all plugin answers", "why_tests_cant": "all histories and answer combinations", "anchors": ["core/metamod_plugins.cpp:_Pause,_Unpause,_Unload,_Load"]}
{"id": "C29", "title": "Plugin life cycle events reach every other plugin's listeners exactly once", "statement": "On a load, unload, pause or unpause that succeeds via the public operation, each listener registered by any other plugin in the list is called exactly once, in plugin-list order then registration order, and none of the plugin's own listeners is called.", "quantifier": "every plugin list and listener registration", "why_tests_cant": "all list shapes", "anchors": ["core/metamod_plugins.cpp:ITER_PLEVENT,Load,Unload,Pause,Unpause"]}
{"id": "C30", "title": "AllPluginsLoaded is delivered exactly once to each running plugin", "statement": "Each plugin that loads successfully gets AllPluginsLoaded exactly once: at the time of the global announcement if it is running then, or right after its own load if it loads later; the announcement takes effect only once.", "quantifier": "every interleaving of loads, pauses and the announcement", "why_tests_cant": "history property; pausing at announcement time is the corner case", "anchors": ["core/metamod_plugins.cpp:SetAllLoaded,_Load"]}
{"id": "C31", "title": "Aliases behave as a finite map", "statement": "After any sequence of alias assignments, looking up an alias returns the last non-empty value assigned to it, or nothing if it was never assigned or was last assigned the empty value; other aliases are unaffected; at most one entry exists per alias.", "quantifier": "every sequence of SetAlias calls and every lookup key", "why_tests_cant": "unbounded histories", "anchors": ["core/metamod_plugins.cpp:SetAlias,LookupAlias"]}
{"id": "C32", "title": "Interface queries are answered by listeners in order, else by the real factory", "statement": "A factory query is put to the listeners in order (plugin list, then registration). The first listener that returns a non-NULL pointer answers it, with the return code it wrote or META_IFACE_FAILED if it wrote none, and nothing further is asked. If all return NULL the real factory is called exactly once and its answer is the answer. MetaFactory answers Metamod's own names itself, else likewise asks the listeners, else returns NULL.", "quantifier": "every listener sequence, all their answers, and listeners that call back into Metamod", "why_tests_cant": "all answer sequences", "anchors": ["core/metamod.cpp:IFACE_MACRO,EngineFactory,ServerFactory"]}
{"id": "C33", "title": "InterfaceSearch finds the highest-priority available version and terminates", "statement": "InterfaceSearch returns an interface whenever the factory offers one of the names it is documented to try, tries each at most once, and always terminates.", "quantifier": "every factory (any answer set), every name and every max", "why_tests_cant": "all factories and name strings; termination is not testable", "anchors": ["core/metamod.cpp:InterfaceSearch,FormatIface,VInterfaceMatch"]}
{"id": "C34", "title": "FormatIface increments the version suffix", "statement": "For a name ending in exactly three digits (version v < 999), FormatIface yields the same name with version v+1 zero-padded and returns v+1; names without trailing digits get '001' appended; nothing outside the buffer is written.", "quantifier": "every name string and buffer size", "why_tests_cant": "all strings", "anchors": ["core/metamod.cpp:FormatIface"]}
{"id": "C35", "title": "Path comparison is an equivalence up to repeated separators", "statement": "UTIL_PathCmp(a,b) holds exactly when a and b are equal after collapsing every run of separators to one; it is reflexive, symmetric and transitive and never reads beyond either terminator.", "quantifier": "all pairs/triples of strings", "why_tests_cant": "all strings of any length", "anchors": ["core/metamod_util.cpp:UTIL_PathCmp", "loader/utility.cpp:mm_PathCmp"]}
{"id": "C36", "title": "Relative paths resolve to the target", "statement": "If UTIL_Relatize succeeds with a sufficiently large buffer for absolute paths without '.'/'..' components, then walking the result from the first path arrives at the second path.", "quantifier": "all absolute paths", "why_tests_cant": "all path pairs", "anchors": ["core/metamod_util.cpp:UTIL_BadRelatize,UTIL_Relatize2,SplitPath"]}
{"id": "C37", "title": "Trimming removes exactly the outer white space", "statement": "Left/right trimming removes the maximal white-space prefix/suffix and nothing else, is idempotent, the two commute, and all-blank strings become empty.", "quantifier": "all strings", "why_tests_cant": "all strings of any length", "anchors": ["core/metamod_util.cpp:UTIL_TrimLeft,UTIL_TrimRight", "loader/utility.cpp:mm_TrimLeft,mm_TrimRight"]}
{"id": "C38", "title": "Bounded formatting always terminates the buffer", "statement": "For any text and any buffer of size n >= 1 bounded formatting writes only inside the buffer, leaves it NUL-terminated holding the longest prefix of the text that fits in n-1 characters, and returns that prefix's length.", "quantifier": "all texts and buffer sizes", "why_tests_cant": "all lengths", "anchors": ["core/metamod_util.cpp:UTIL_Format,UTIL_FormatArgs", "loader/utility.cpp:mm_Format,mm_FormatArgs"]}
{"id": "C39", "title": "Key/value splitting stays in bounds and recovers key and value", "statement": "mm_KeySplit never writes outside the buffers whose sizes it was given and for a line 'key value' or '\"key\" \"value\"' that fits yields that key and value.", "quantifier": "all lines and buffer sizes", "why_tests_cant": "all strings and sizes", "anchors": ["loader/utility.cpp:mm_KeySplit"]}
{"id": "C40", "title": "Comment stripping", "statement": "Removing comments cuts the line at the first '//' that starts a comment, changes nothing before it, leaves lines without '//' unchanged and is idempotent.", "quantifier": "all strings", "why_tests_cant": "all strings", "anchors": ["loader/utility.cpp:mm_TrimComments"]}
{"id": "C41", "title": "Pattern search finds the first occurrence and stays inside the image", "statement": "mm_FindPattern returns the first position inside the library image where the pattern (0x2A = wildcard) occurs, or NULL if there is none, and reads only bytes of the image. UTIL_VerifySignature accepts exactly the matching byte sequences.", "quantifier": "all images, patterns and lengths", "why_tests_cant": "all images and patterns incl. occurrences at the very end", "anchors": ["loader/utility.cpp:mm_FindPattern", "core/metamod_util.cpp:UTIL_VerifySignature"]}
{"id": "C42", "title": "Prototype comparison", "statement": "The prototype comparison used to match hooks is reflexive on valid prototypes and symmetric, treats an unknown convention as a wildcard, distinguishes prototypes that differ in parameter count, sizes, types or flags, and never reads beyond the parameter arrays.", "quantifier": "all prototypes with any number of parameters", "why_tests_cant": "all parameter lists", "anchors": ["core/sourcehook/sourcehook_impl_cproto.cpp:CProto::operator==,ExactlyEqual,Fill"]}
{"id": "C43", "title": "Loader entry point protocol", "statement": "The loader's CreateInterface hands out the server-plugin callbacks only for interface versions up to 2 and only while no VSP bridge is active, forwards to the loaded core once one is active, never hands the same game-dll interface request to the game before the game information was detected, and sets the return code to 0 exactly when it returns a non-NULL pointer.", "quantifier": "every sequence of interface requests and loads", "why_tests_cant": "all request histories", "anchors": ["loader/loader.cpp:CreateInterface", "loader/gamedll.cpp:mm_GameDllRequest", "loader/serverplugin.cpp:mm_GetVspCallbacks,Load,Unload"]}
{"id": "C44", "title": "Engine detection is a total decision", "statement": "For every combination of available engine/server interfaces, game directory name and image contents, engine detection terminates with a well-defined backend; the backend index is always a valid index of the backend name table or UNKNOWN; obsolete backends are never chosen.", "quantifier": "all interface availability sets and game names", "why_tests_cant": "2^n interface combinations with arbitrary names", "anchors": ["loader/loader.cpp:mm_DetermineBackendS1,backend_names,mm_LoadMetamodLibrary"]}
{"id": "C45", "title": "Loader vtable patches are undone", "statement": "The loader's patches of the game's Init/Connect slots are each undone by the first call through them: the slot holds its original value afterwards, the original is called exactly once per call, and all other slots are untouched.", "quantifier": "all vtable contents and all call outcomes", "why_tests_cant": "all outcomes of engine callbacks", "anchors": ["loader/gamedll.cpp:mm_PatchDllInit,mm_PatchConnect,mm_PatchDllShutdown,DLLInit"]}
{"id": "C46", "title": "Plugin list file semantics", "statement": "From a metaplugins file exactly the non-blank, non-comment lines are loaded, in file order, 'alias path' lines define the alias and load the path, and a file is skipped exactly if it is already loaded.", "quantifier": "all files", "why_tests_cant": "all file contents", "anchors": ["core/metamod.cpp:LoadPluginsFromFile"]}
{"id": "C47", "title": "String class semantics", "statement": "assign, append, compare, find, substr, erase, trim, at and size of the string class agree with operations on character sequences and stay within the allocation.", "quantifier": "all strings and index arguments", "why_tests_cant": "all strings and indexes", "anchors": ["core/sourcehook/sh_string.h:String"]}
{"id": "C48", "title": "VSP listening notification", "statement": "Every listener gets OnVSPListening exactly once: when the server plugin interface becomes available if registered before, or on enabling afterwards according to the documented rule; EnableVSPListener is idempotent.", "quantifier": "every interleaving of listener registration, enabling and notification", "why_tests_cant": "all schedules", "anchors": ["core/metamod.cpp:EnableVSPListener,NotifyVSPListening,AddListener,GetVSPInfo"]}
{"id": "C49", "title": "Generated hook managers are shared and reference counted", "statement": "MakeHookMan returns the same public function for requests with equal prototype, offset and index while at least one reference is held, different ones for different requests, and the generated code is released exactly when the number of releases equals the number of makes.", "quantifier": "every sequence of MakeHookMan/ReleaseHookMan", "why_tests_cant": "unbounded histories", "anchors": ["core/sourcehook/sourcehook_hookmangen.cpp:MakeHookMan,ReleaseHookMan"]}
{"id": "C50", "title": "Memory protection changes cover the whole range", "statement": "Changing the protection of (address,length) affects a page-aligned range that contains every byte of the request and no page that contains none of its bytes.", "quantifier": "all addresses, lengths and page sizes", "why_tests_cant": "all address/length pairs", "anchors": ["core/sourcehook/sh_memory.h:SetMemAccess,SH_LALIGN,SH_LALDIF,MakePageWritable"]}
{"id": "C51", "title": "Context accessors report the current call", "statement": "META_IFACEPTR in a handler is the object pointer that was passed to AddHook's object space (this-pointer minus the hook's offset), also in a recalled function; META_RESULT_OVERRIDE_RET is available exactly when some handler already overrode; META_RESULT_ORIG_RET in a post handler is the original's (or superceding) value.", "quantifier": "every handler position, offset and nesting/recall depth", "why_tests_cant": "unbounded nesting and all offsets", "anchors": ["core/sourcehook/sourcehook.cpp:GetIfacePtr,GetOrigRet,GetOverrideRet,GetOverrideRetPtr"]}
{"id": "C52", "title": "Code buffer growth preserves generated code", "statement": "Appending to the code buffer preserves all previously written bytes and returns them at the same offsets across any number of reallocations; rewriting inside the written range changes exactly the addressed bytes.", "quantifier": "all push/rewrite sequences", "why_tests_cant": "all growth points", "anchors": ["core/sourcehook/sh_asm.h:GenBuffer"]}
{"id": "C53", "title": "Console and listener registration lists", "statement": "The commands/variables recorded for a plugin are exactly those it registered and did not unregister; unloading a plugin unregisters each of them exactly once.", "quantifier": "every sequence of register/unregister/unload", "why_tests_cant": "history property; iteration while unregistering", "anchors": ["core/metamod_plugins.cpp:AddPluginCvar,RemovePluginCvar,UnregAllConCmds", "core/metamod.cpp:RegisterConCommandBase,UnregisterConVar"]}
{"id": "C54", "title": "Command line argument lookup", "statement": "mm_GetCommandArgument finds the value following the named argument in the command line and reports absence otherwise, with quotes handled, without overrunning the output buffer.", "quantifier": "all command lines and argument names", "why_tests_cant": "all strings", "anchors": ["loader/utility.cpp:mm_GetCommandArgument"]}
{"id": "C55", "title": "Unloading everything terminates with an empty list", "statement": "UnloadAll terminates with no plugin left, asking each plugin exactly once, and reports success.", "quantifier": "every plugin list, whatever the plugins answer", "why_tests_cant": "all lists; termination", "anchors": ["core/metamod_plugins.cpp:UnloadAll,_Unload"]}
{"id": "C56", "title": "First load and reload of the plugin list", "statement": "The plugins of the configuration are loaded exactly once: at the start with the game DLL loader, else at the first start of the game or end of a level. The configuration is read again at the end of every level except the first after loading.", "quantifier": "every sequence of engine events, plugin actions during callbacks included", "why_tests_cant": "all interleavings and both loaders", "anchors": ["core/metamod.cpp:OnGameInit,OnLevelShutdown,mm_StartupMetamod,NotifyVSPListening"]}
{"id": "C57", "title": "Full path of a plugin", "statement": "GetFullPluginPath gives an absolute path unchanged, a name with an extension as <mod>/<name>, and any other name as <mod>/<name>.x64.so if that file exists and else <mod>/<name>.so, with slashes for backslashes, cut to the buffer and always inside it.", "quantifier": "all names, game paths, buffer sizes and file systems", "why_tests_cant": "unbounded strings and buffer sizes", "anchors": ["core/metamod.cpp:GetFullPluginPath", "core/metamod_util.cpp:UTIL_GetExtension"]}
{"id": "C58", "title": "Plugins named by .vdf files", "statement": "From the directory of .vdf files exactly the entries whose name ends in .vdf (small or capital letters) are processed, in the order of the directory. Each is read under a relative name that leads to it, sets the alias it names and loads the file it names. A plugin counts as loaded exactly if it newly became running or paused and as skipped exactly if it was loaded before. No directory and no file content makes the code leave an array or read a name never written.", "quantifier": "all directories, file contents, game paths and plugin manager states", "why_tests_cant": "unbounded directories and strings; uninitialised array content", "anchors": ["core/metamod.cpp:ProcessVDF,LoadVDFPluginsFromDir,mm_LoadPlugins", "core/provider/source/provider_source.cpp:ProcessVDF"]}
{"id": "C59", "title": "The console command meta", "statement": "`meta` does what its words say: commands that only tell something, lack their argument or are unknown change nothing; pause, unpause, retry, unload and force_unload with a number act on exactly the plugin with that number; load answers a number only of a plugin in the list that runs or is paused and has the path asked for; what load has loaded under a name, unload unloads under the same name. Before the map change that activates Metamod nothing happens.", "quantifier": "all argument lists, plugin manager states, plugin behaviours", "why_tests_cant": "unbounded strings and plugin states; callbacks that act during the command", "anchors": ["core/metamod_console.cpp:Command_Meta", "core/sourcehook/sourcehook.cpp:ResolvePendingUnloads"]}
{"id": "C60", "title": "The plugin list shown", "statement": "`meta list` says how many plugins there are and prints one line for each in order: number, state if it is not running, name (or file), version, author, cut to 255 bytes and never written outside the buffer. Players are shown exactly the plugins that run and say so, numbered from 1.", "quantifier": "all plugin lists and all strings plugins return", "why_tests_cant": "unbounded strings from plugins", "anchors": ["core/metamod_console.cpp:Command_Meta,Command_ClientMeta", "core/metamod_plugins.cpp:GetStatusText"]}
{"id": "C61", "title": "Log messages", "statement": "mm_LogMessage tells the engine and the console every message with a newline, prints it if the engine does not take it, never writes outside its buffer, and drops messages that arise while one is told.", "quantifier": "all texts, buffer contents, nestings", "why_tests_cant": "unbounded texts and nesting", "anchors": ["core/metamod.cpp:mm_LogMessage"]}
{"id": "C62", "title": "The game's libraries from the gameinfo file", "statement": "mm_DetectGameInformation reads the gameinfo file of the game's directory (gameinfo.txt, else gameinfo.gi) and, from the line SearchPaths to the end of its section, stores for each Game and GameBin line the server library it names, in order: only files that exist, never the loader itself, no file twice, at most ten. No content makes it leave its buffers.", "quantifier": "all file contents, command lines and file systems", "why_tests_cant": "unbounded contents; cut lines and values", "anchors": ["loader/gamedll.cpp:mm_DetectGameInformation", "loader/utility.cpp:mm_ResolvePath,mm_PathCmp,mm_KeySplit,mm_TrimComments"]}
{"id": "C63", "title": "The 64-bit assembler writes the instruction asked for", "statement": "For every operation the hook manager uses and all its operands, the bytes x64JitWriter writes are read by a processor as exactly that instruction and nothing more, whatever bytes follow; different operations give different bytes; loading a 64-bit or a non-negative 32-bit number gives the register that number; and filling in a jump's displacement afterwards gives the jump with that displacement.", "quantifier": "all operations, registers, displacements, immediates and following bytes", "why_tests_cant": "all register and displacement combinations (special cases rsp, rbp, r12, r13, extended registers)", "anchors": ["core/sourcehook/sh_asm_x86_64.h:x64JitWriter", "core/sourcehook/sh_asm.h:GenBuffer"]}
{"id": "C64", "title": "The generated public function", "statement": "The machine code GeneratePubFunc writes, run under the 64-bit Windows calling convention, stores the hook manager info if told to, calls SetInfo of it exactly when it is not null with the right six arguments and an aligned stack, changes no other memory, keeps all preserved registers, and returns 0 to its caller.", "quantifier": "all machine states, memories, generator parameters and behaviours of the called function", "why_tests_cant": "arbitrary memory, registers and callee behaviour", "anchors": ["core/sourcehook/sourcehook_hookmangen_x86_64.cpp:GeneratePubFunc", "core/sourcehook/sh_asm_x86_64.h:x64JitWriter"]}
{"id": "C65", "title": "The generated hook function", "statement": "The machine code GenerateHookFunc writes, run under the 64-bit Windows calling convention, does what the hand-written hook function (SH_DECL_HOOK) does: it sets up a context, calls every hook with this, the hidden return pointer and all parameters, raises the status and sets the override value, shows each hook the result of the one before in prev_res, calls the original unless superseded, runs the post hooks, picks the value to return, ends the context, destroys by-value parameters and its return variables, and returns the value where the convention has it, with all preserved registers and the stack pointer intact and every call made with an aligned stack.", "quantifier": "all prototypes within the stated size bounds, machine states, memories, numbers of hooks and behaviours of all called functions", "why_tests_cant": "arbitrary prototypes, hook counts, callee behaviour and memory contents", "anchors": ["core/sourcehook/sourcehook_hookmangen_x86_64.cpp:GenerateHookFunc", "core/sourcehook/sourcehook_hookmangen_x86_64.cpp:GenerateCallHooks", "core/sourcehook/sourcehook_hookmangen_x86_64.cpp:GenerateCallOrig", "core/sourcehook/sourcehook_hookmangen_x86_64.cpp:DoReturn", "core/sourcehook/sourcehook_hookmangen_x86_64.cpp:AutoDetectRetType"]}
{"id": "C66", "title": "The 64-bit generator takes exactly the prototypes it can pass, and classifies returned values by size and kind", "statement": "Generate takes a prototype exactly when its version is at least 1, its calling convention is thiscall apart from the format-string bits, and its returned value (if it has a size) and every parameter have a known type, are passed by value or by reference, and, for an object by value, have an address for every special function they are flagged to have. AutoDetectRetType changes only the two flags saying where a value is returned: references and numbers of at most 8 bytes are returned in a register whatever the plugin said, larger numbers in memory, and for an object by value the plugin's choice holds if it made one. A prototype with a format string and variable arguments is also taken, although the hook function passes the hooks the fixed parameters only.", "quantifier": "all prototypes (version, convention, returned value, any number of parameters) and all 32-bit flag words; for the variable arguments, all machine states, memories and answers", "why_tests_cant": "the flag words, sizes and parameter lists form an unbounded space, and a function with variable arguments appears to work in any test whose hooks do not read the formatted text", "anchors": ["core/sourcehook/sourcehook_hookmangen_x86_64.cpp:214-293", "core/sourcehook/sourcehook_hookmangen_x86_64.cpp:1229-1291", "core/sourcehook/sourcehook.h:230-245", "core/sourcehook/sourcehook_hookmangen_x86.cpp:984-992"]}
{"id": "C67", "title": "Pointers to member functions are decoded to the right table entry", "statement": "For a pointer to virtual function n of a base class at offset d, GetFuncInfo reports exactly n and d, distinguishes it from every other function and from a function that is not virtual, and the table entry AddHook derives from the report is the entry a call through the pointer would use; for MSVC the same from the code bytes behind the pointer, with and without a relative jump before them.", "quantifier": "all indices and offsets, all function addresses, all code memories holding the thunk", "why_tests_cant": "the compiler of the test fixes the representation, the jump directions and the offsets; the space of indices, offsets and code layouts is unbounded", "anchors": ["core/sourcehook/sh_memfuncinfo.h:60-150", "core/sourcehook/sh_memfuncinfo.h:150-330"]}
{"id": "C68", "title": "The memory searched for a pattern is the readable loaded part of the library", "statement": "For a library loaded by the system, mm_GetLibraryInfo reports its base address, the distance between its lowest and highest loaded page, and as ranges exactly the pages of its readable PT_LOAD segments in order, all inside the image; it refuses everything that is not a little-endian 64-bit x86-64 shared object and files with nothing loaded. Hence mm_FindPattern on it never reads unmapped memory, and a position it returns is an occurrence inside a readable segment.", "quantifier": "all memories, program header tables of any length, page sizes (powers of two) and patterns", "why_tests_cant": "segment tables and page sizes form an unbounded space; a wrong rounding shows only with particular addresses and faults only if the neighbouring page is not mapped", "anchors": ["loader/utility.cpp:386-633", "loader/utility.cpp:635-671"]}
{"id": "C69", "title": "The user message list is read completely and the patched function is put back", "statement": "The 5-byte jump written over Error leads to the detour exactly when the detour is within reach. If the server ends its list of user messages by answering false, or by calling Error with the detour in reach, the list read is exactly the server's list, every byte of memory is as before and only the protection of the patched pages differs. FindUserMessage returns the first index with the name or -1; GetUserMessage answers exactly the valid indices; without support everything answers -1.", "quantifier": "all addresses, code memories, page sizes, server lists, names and indices", "why_tests_cant": "depends on the distance between two loaded libraries and on page boundaries, which a test run fixes; lists are unbounded", "anchors": ["core/provider/source/provider_source.cpp:500-611", "core/provider/source/provider_source.h:96-117"]}
{"id": "C70", "title": "The list of commands of old engines holds exactly what was registered and not removed", "statement": "Registering puts the command at the front of the engine's linked list; unregistering takes out exactly that command and keeps the order of the others; removing all own commands leaves exactly the engine's; so after any sequence of operations the engine's list is what it was followed through by the sequence. Without the list's address the list is left alone, and the address reported comes from the symbol or the signature.", "quantifier": "all well-formed lists of any length, all sequences of registrations and removals", "why_tests_cant": "pointer surgery on lists of any length with any order of operations", "anchors": ["core/provider/source/provider_source_console.cpp:36-180"]}
{"id": "C71", "title": "Source 2: hooks follow the engine's game loop modes and own search paths disappear", "statement": "Through every orderly sequence of registering, creating, using and destroying game loop modes, the provider's hooks are exactly: the three on the engine, two per registered game factory, two per live mode; callbacks are reported in the order of the engine's calls. After shutdown of an empty engine no hook is left. The search paths of the handled ids afterwards are exactly the earlier ones without the word metamod, all others unchanged.", "quantifier": "all sequences of engine events, all file systems", "why_tests_cant": "event sequences are unbounded and produced by the engine only", "anchors": ["core/provider/source2/provider_source2.cpp:60-172", "core/provider/source2/provider_source2.cpp:390-473"]}
{"id": "C72", "title": "A prototype built with CProtoInfoBuilder is read back exactly", "statement": "After any sequence of SetReturnType, AddParam and conversions, the prototype SourceHook reads from the builder is version 2 with the given convention, the return type set last and exactly the parameters added, in order, each with its size, type and functions and with a flag set iff it was given or announced by a function given. A pointer taken before a further AddParam dangles exactly when the new parameter fills the array (6, 14, 30, ... parameters); otherwise it shows the new parameter.", "quantifier": "all sequences of calls of any length with any arguments", "why_tests_cant": "the array is reallocated only at particular lengths and freed memory usually still holds the old contents", "anchors": ["core/sourcehook/sourcehook_pibuilder.h:20-105", "core/sourcehook/sourcehook_impl_cproto.cpp:17-90"]}
{"id": "C73", "title": "The writer of 32-bit machine code writes the instructions its functions name", "statement": "For every function of the 32-bit writer and every argument it is meant for, the bytes written decode (by an independent decoder of IA-32) to exactly the instruction the function's name promises, and decoding continues right behind them; any sequence of calls reads back as the same sequence of instructions. For the arguments and functions where this is false the actual meaning is proved instead.", "quantifier": "all 183 functions, all registers, modes, displacements and immediates, all sequences of calls, whatever bytes follow", "why_tests_cant": "registers, modes, displacements of 32 bits and following bytes are too many to try, and a wrong length only shows through the instructions after it", "anchors": ["core/sourcehook/sourcehook_hookmangen_x86.h:19-1609"]}
{"id": "C74", "title": "The generated 32-bit public function hands over the hook information", "statement": "The machine code GeneratePubFunc writes on 32-bit x86, run on a machine with the IA-32 semantics: with a null hi it calls nothing, stores it where told to, changes no other memory apart from its own stack, keeps every preserved register and returns 0 to its caller; with a non-null hi it calls exactly the first entry of hi's virtual table, with hi, the version, vtable offset and index, the prototype and the cell of the hook function as arguments, the stack aligned as the convention asks, and returns in the same way.", "quantifier": "all constants in the code, all machine states and memories meeting the calling convention, all answers of SetInfo that keep to the convention", "why_tests_cant": "memory contents, register values and answers of the called function are unbounded; the generated bytes are never seen by the compiler", "anchors": ["core/sourcehook/sourcehook_hookmangen_x86.cpp:1706-1793"]}
{"id": "C75", "title": "The 32-bit generator takes exactly the prototypes it can pass, classifies and lays them out consistently", "statement": "Generate takes a prototype exactly if its version is known, its convention is thiscall (with or without variable arguments) and the returned value and every parameter are of a known type, by value or by reference, with every special function they are said to have. Numbers of at most 8 bytes and references are returned in registers, larger numbers and objects the plugin says nothing about in memory, otherwise the plugin decides. The total size of the parameters is exact below 32 KB; the gap made before a call makes the stack a multiple of 16 and is the smallest that does; the variables of the hook function do not overlap and fill the frame exactly.", "quantifier": "all prototypes (any number of parameters, any flags, sizes and function pointers), all numbers of bytes pushed", "why_tests_cant": "flags, sizes and lists of parameters are unbounded; wrong layouts show only for rare combinations of flags", "anchors": ["core/sourcehook/sourcehook_hookmangen_x86.cpp:126-279", "core/sourcehook/sourcehook_hookmangen_x86.cpp:1338-1503", "core/sourcehook/sourcehook_hookmangen_x86.cpp:1795-1951"]}
{"id": "C76", "title": "The generated 32-bit hook function does what the C function it stands for does", "statement": "For a prototype the 32-bit generator takes and whose by-value objects can be copied as bytes, the bytes it writes, run on the machine, make exactly the calls of the C function in the generator's comments (status, variable arguments, constructors, SetupHookLoop, the loop over the hooks with cur_res, prev_res, status and the overriding value, the original function or its substitute, the second loop, the pointer to the returned value, EndContext, the return, destructors): in the same order, of the same functions, with the same argument bytes, the same visible memory and, where the convention demands it, an aligned stack. It returns to its caller with the same value in EAX, EDX or on the floating point stack, with the preserved registers and the stack pointer as the convention wants, and leaves the same memory behind. A floating point parameter arrives with the bits it was given unless it is a signalling NaN, of which exactly the highest bit of the fraction is set.", "quantifier": "all prototypes (any number and kinds of parameters, any returned value), all machine states on entry, all answers of all functions called including any memory they write outside the function's private words, any number of hooks", "why_tests_cant": "the bytes depend on the prototype, and the behaviour on what arbitrary foreign functions answer and write; a test runs a few prototypes with a few hooks", "anchors": ["core/sourcehook/sourcehook_hookmangen_x86.cpp:126-1053", "core/sourcehook/sourcehook_hookmangen_x86.cpp:1055-1334", "core/sourcehook/sourcehook_hookmangen_x86.cpp:1360-1650"]}
{"id": "C77", "title": "The bridges take the right game and keep the server plugin from being unloaded", "statement": "In VSP mode VspBridge::Load takes the game's interface with the lowest version from 3 to 50, remembers its version and name, sets every hook on the game once, and fails exactly if there is none or the game has no player information; a Load that fails has set no hook, told no listener and started nothing. While the engine runs the command plugin_unload every Unload that reaches the bridge is refused, no hook goes and the plugins stay; the refusal ends with the command. Otherwise Unload takes every hook off the command however often Load was called; in game DLL mode it leaves Metamod and the hooks on the game alone, in VSP mode it unloads the plugins once and leaves no hook. The description grows by one suffix for every Load.", "quantifier": "all engines and games (what the factories answer, at every call anew), all sequences of Load, Unload, DLLInit_Pre, DLLInit_Post, game shutdown and commands, with any such sequence inside a command", "why_tests_cant": "what the factories answer and the interleavings of commands and calls of the loader are unbounded; a test has one engine", "anchors": ["core/vsp_bridge.cpp:43-192", "core/gamedll_bridge.cpp:36-96", "core/provider/source/provider_source.cpp:64-155", "core/metamod.cpp:211-240", "core/metamod.cpp:541-565"]}
{"id": "C78", "title": "Plugins are looked for where the command line, the variables or the defaults say, and the engine is told the right file", "statement": "When plugins are loaded for the first time, the list of plugins and the directory of .vdf files are each the one named on the command line, else the one of the console variable, else the default; at the end of a level they are the ones of the variables, so without command line they are the same every time. The path handed on is the game's directory, a slash and that text, with slashes only, at most 4095 bytes. The variables are created with the default places and the flags asked for, and metamod_version ends with V exactly if Metamod is a plugin of the engine. When Metamod as game DLL asks the engine to load it as a plugin, the command is plugin_load with one quoted path, which leads from the engine's directory to Metamod.", "quantifier": "all command lines, variables, game directories and both providers; all paths of the engine and of Metamod, all answers of dladdr, realpath and access, all contents of the arrays", "why_tests_cant": "the combinations of what is given, of paths and of their lengths around the sizes of the arrays are unbounded, and what is read from an array that was never written is not repeatable", "anchors": ["core/metamod.cpp:178-191", "core/metamod.cpp:348-386", "core/metamod.cpp:469-535", "core/metamod_oslink.cpp:75-97", "core/provider/source/provider_source.cpp:344-382", "core/provider/source/provider_source.cpp:414-433", "core/provider/source2/provider_source2.cpp:255-284"]}
{"id": "C79", "title": "A player's meta is answered to that player alone and kept from the game; the console's is answered on the console", "statement": "A player's command whose first word is meta is answered to that player and to nobody else, with the credits, the versions, the numbered list of plugins that run, or otherwise the menu, and the game does not see it; any other command reaches the game and is not answered. The credits and the versions read the same on the console. The console's meta does for the words of the line what it does for the list of its arguments, also for a line without words. What is printed is the text cut after 2047 bytes, inside its array. meta info tells the status, the strings and the file of the plugin with that number, or that there is none. A plugin that asks about a plugin is told its file, status, source and library, or nothing, and a plugin's log messages carry its tag.", "quantifier": "all players, lines and numbers of words, both providers; all reachable lists of plugins, strings of plugins and contents of the arrays", "why_tests_cant": "players, words, plugins and the lengths of strings are unbounded, and what an array holds that was never written is not repeatable", "anchors": ["core/provider/source/provider_source.cpp:436-503", "core/provider/source/provider_source.cpp:674-695", "core/provider/source2/provider_source2.cpp:355-388", "core/provider/source2/provider_source2.cpp:457-473", "core/metamod_console.cpp:44-104", "core/metamod_console.cpp:300-346", "core/metamod_console.cpp:646-728", "core/metamod.cpp:567-577", "core/metamod.cpp:627-637", "core/metamod.cpp:789-799", "core/metamod_plugins.cpp:734-792"]}
{"id": "C80", "title": "What is read from /proc/self/maps is what the kernel wrote", "statement": "For every file /proc/self/maps as the kernel writes it, GetPageBits tells of an address in a mapping exactly the mapping's read, write and execute flags and of any other address that it found nothing, and ModuleInMemory tells exactly whether the whole range lies in one mapping; the parser reads nothing outside its line buffer whatever that buffer held before. So after a successful MakePageWritable the slot of a virtual function is writable, everything allowed before is still allowed, and no other page has changed.", "quantifier": "all lists of mappings that do not overlap, all bounds, flags and rests of lines, all addresses and lengths, 32 and 64 bits", "why_tests_cant": "the layouts of memory and the number, width and length of lines are unbounded; a test sees the map of one process", "anchors": ["core/sourcehook/sh_memory.h:58-101", "core/sourcehook/sh_memory.h:220-231", "core/sourcehook/sh_memory.h:263-300", "core/sourcehook/sourcehook_impl_cvfnptr.cpp:129-143"]}
{"id": "C81", "title": "The server plugin's function table fits the engine", "statement": "The loader adapts its server plugin's function table to the engine it finds: afterwards the engine finds, in every slot of its own layout, the function it means (ClientCommand with or without arguments, ClientFullyConnect present or the following functions moved up). Nothing but a Load changes the table, each Load at most once and only for a known engine; before the callbacks are used it is as the compiler made it. After the first Load it fits the engine found, also if the Load then fails.", "quantifier": "all 28 engines, all programs of requests, calls and Loads, all behaviours of engine, game and core, which may call the loader again", "why_tests_cant": "one process has one engine, and the orders of requests, failures and re-entries are unbounded", "anchors": ["loader/serverplugin.cpp:56-63", "loader/serverplugin.cpp:82-203", "loader/serverplugin.cpp:287-308", "loader/loader.h:81-112"]}
{"id": "C82", "title": "A generated hook manager hands over the prototype asked for, and the generators' memory is accounted for", "statement": "Whatever hook managers are asked for and released: the function answered belongs to a context made for a request that agrees with this one; what SourceHook reads at the address it is handed was written, is still there, and is read as exactly that prototype with the flags the generator completes, compatible with the request; no array is deleted with the wrong form of delete, nothing twice, nothing is read past its end; every hook function's variables lie where its frame has them, however often code was generated; the memory held is that of the contexts in the table, and none is left when the table is destroyed.", "quantifier": "all sequences of MakeHookMan and ReleaseHookMan, all readable prototypes, both generators, any address for the generated code", "why_tests_cant": "the prototypes and the orders of requests are unbounded; a leak or a wrong form of delete does not show in a result", "anchors": ["core/sourcehook/sourcehook_hookmangen_x86.cpp:51-124", "core/sourcehook/sourcehook_hookmangen_x86.cpp:1911-1969", "core/sourcehook/sourcehook_hookmangen_x86_64.cpp:104-190", "core/sourcehook/sourcehook_hookmangen_x86_64.cpp:1403-1421", "core/sourcehook/sourcehook_hookmangen.cpp:61-104"]}
{"id": "C83", "title": "A plugin's console commands and variables are the engine's exactly while registered", "statement": "On Source 2 a command is hidden exactly if the last call about it was to unregister it, no other flag ever changes, its callbacks and a variable's data and callbacks are gone from the first unregistration on. While a plugin is loaded, a command it alone registers is shown exactly while it is on the plugin's list. Unloading the plugin hides each of its commands, invalidates each of its variables and leaves everyone else's; on the old engines it takes exactly its entries out of the engine's list. What is registered as a base object is unregistered as the same kind. Metamod's own variables get exactly the flags asked for and are deleted exactly once.", "quantifier": "all sequences of registrations and unregistrations by any plugins, all reachable states of the manager, all flags, all well-formed command lists", "why_tests_cant": "history property across plugins, loads and unloads; needs an engine", "anchors": ["core/provider/source2/provider_source2.cpp:152-155,291-354", "core/provider/source/provider_source.cpp:389-434", "core/metamod.cpp:920-962", "core/metamod_plugins.cpp:804-866"]}
{"id": "C84", "title": "The generator of SourceHook's macros expands its template as the directives say", "statement": "An arithmetic expression is accepted exactly if it begins with a sum of products of numbers and parentheses and is computed as such, from the left, every operation checked against int. A template of text, variables, expressions, conditions and nested iterations, given up to ten non-negative arguments, is expanded to what it stands for: an iteration is its code for each number from the first to the last with the separator between each two, a condition is its code if the comparison holds, variables are put in wherever they are in scope; and the program returns 0. For every n, the macro lines for 0 to n parameters list exactly the parameters 1 to i, with commas between and before them where needed.", "quantifier": "all expressions and all texts given to the parser; all templates whose parts can be told apart, all arguments, all numbers of rounds", "why_tests_cant": "unbounded nesting, unbounded numbers of parameters; the committed header is one output for one argument", "anchors": ["core/sourcehook/generate/shworker/shworker.cpp:85-730", "core/sourcehook/generate/sourcehook.h:1205-1241"]}
{"id": "C85", "title": "A delegate calls what it was bound to, and two handlers are equal exactly if they were bound to the same", "statement": "After any sequence of binding, copying and clearing delegates, calling one makes exactly the call the compiler itself would make for the pointer to member it was last bound to (virtual functions being looked up at the time of the call), or calls the plain function; it is empty exactly if it is bound to nothing; two are equal (the comparison SH_REMOVE_HOOK relies on) exactly if they are bound to the same object and pointer to member or to the same plain function. Equal handlers always make the same call, equality is an equivalence, and < is a strict order that agrees with it. With the Microsoft compiler each representation of pointers to members, with four- and eight-byte pointers, is reduced to the code and object pointer of the compiler's own call.", "quantifier": "all sequences of operations on any number of delegates, all memory contents, all object pointers, functions and adjustments, word sizes, both ABIs", "why_tests_cant": "depends on the compiler's representation of pointers to members: tests on one compiler with one class hierarchy say nothing of the others, nor of comparisons between handlers named differently", "anchors": ["core/sourcehook/FastDelegate.h:297-511", "core/sourcehook/FastDelegate.h:567-968", "core/sourcehook/sourcehook.h:1055-1078"]}
{"id": "C86", "title": "A hook function generated at run time calls hooks and original and returns by the rule of SourceHook", "statement": "Machine code generated for a function that returns nothing, a number, a pointer or a reference, executed with any hooks in place, makes exactly these calls in this order: SetupHookLoop; for each hook in front, GetNext and the hook with the parameters of the call; the original function with the same parameters if and only if no hook in front said MRES_SUPERCEDE and ShouldCallOrig said yes; the hooks behind in the same way; the pointer to the result; EndContext; the destructors of parameters. Every function called finds as status the highest result code so far, as override value that of the last hook that said MRES_OVERRIDE or more, and the original value. It then returns the value of the last hook, before or behind, that overrides, or else the original function's value.", "quantifier": "all prototypes with such results, all parameters, all numbers of hooks with all result codes and values, all memory contents, all behaviour of the called functions that keeps the variables and objects they do not own", "why_tests_cant": "each prototype generates other code and each combination of hooks and result codes takes another path through it; tests try a handful of prototypes with two or three hooks", "anchors": ["core/sourcehook/sourcehook_hookmangen_x86_64.cpp:302-620", "core/sourcehook/sourcehook_hookmangen_x86_64.cpp:640-1110", "core/sourcehook/sourcehook.h:131-139", "core/sourcehook/sourcehook.h:950-1010"]}
{"id": "C87", "title": "A hook function generated at run time on 32-bit x86 calls hooks and original and returns by the rule of SourceHook", "statement": "Machine code generated for a function whose result is copied as bytes (nothing, a number, a pointer, a reference, a float or double, an object without special functions in registers or through the hidden pointer), executed with any hooks in place, makes exactly these calls in this order: vsnprintf once where the function takes a format and variable arguments; SetupHookLoop; for each hook in front, GetNext and the hook with the parameters of the call, or with the text made of format and arguments; the original function with the same parameters, or with \"%s\" and the text, if and only if no hook in front said MRES_SUPERCEDE and ShouldCallOrig said yes; the hooks behind in the same way; the pointer to the result; EndContext. Every function called finds as status the highest result code so far, as override value that of the last hook that said MRES_OVERRIDE or more, the original value, and the text unchanged. It then returns, byte for byte and in the place the calling convention has for it, the value of the last hook, before or behind, that overrides, or else the original function's value.", "quantifier": "all prototypes with such results, all parameters, all numbers of hooks with all result codes and values, all memory contents, all behaviour of the called functions that keeps the variables and objects they do not own", "why_tests_cant": "each prototype generates other code and each combination of hooks, result codes and kinds of result takes another path through it; tests try a handful of prototypes with two or three hooks", "anchors": ["core/sourcehook/sourcehook_hookmangen_x86.cpp:126-1053", "core/sourcehook/sourcehook_hookmangen_x86.cpp:1055-1334", "core/sourcehook/sourcehook_hookmangen_x86.cpp:1360-1650", "core/sourcehook/sourcehook.h:131-139", "core/sourcehook/sourcehook.h:950-1010"]}
{"id": "C88", "title": "A hook function generated at run time on 32-bit x86 constructs, assigns, copies and destroys the objects of a class result by the rules of C++", "statement": "Machine code generated for a function that returns an object of a class with constructor, copy constructor, assignment operator and destructor, executed with any hooks in place: the three variables for the original, override and plugin value are constructed once, before anything uses them; each hook and the original function return their object into the temporary place, which holds none then; that object is assigned and then destroyed exactly once; the copy constructor makes the object in the caller's place once; the three variables are destroyed once, after the last use. No object is constructed over another, none is assigned, copied or destroyed before it exists or after it is gone; in the end only the caller's object is left, with the value of the last hook that overrides, else that of the original function.", "quantifier": "all prototypes with such a result, all parameters, all numbers of hooks before and behind with all result codes and values, whether or not the original function is called, all memory contents, all behaviour of the called functions that keeps the variables they do not own", "why_tests_cant": "a missing or repeated destructor shows only for classes that own something, on the path through result codes where it happens; tests count constructor calls for one class and one or two hooks", "anchors": ["core/sourcehook/sourcehook_hookmangen_x86.cpp:530-683", "core/sourcehook/sourcehook_hookmangen_x86.cpp:685-779", "core/sourcehook/sourcehook_hookmangen_x86.cpp:831-931", "core/sourcehook/sourcehook_hookmangen_x86.cpp:1055-1234", "core/sourcehook/sourcehook_hookmangen_x86.cpp:1542-1577", "core/sourcehook/sourcehook_hookmangen_x86.cpp:1625-1665"]}
{"id": "C89", "title": "A hook function generated at run time on 64-bit x86 constructs, assigns, copies and destroys the objects of a class result by the rules of C++", "statement": "Machine code generated for a function that returns an object of a class with constructor, copy constructor, assignment operator and destructor, executed with any hooks in place: the three variables for the original, override and plugin value are constructed once, before anything uses them; each hook and the original function return their object into the temporary place, which holds none then; that object is assigned and then destroyed exactly once; the copy constructor makes the object in the caller's place once; the three variables are destroyed once, after the last use. In the end only the caller's object is left, with the value of the last hook that overrides, else that of the original function, and its address is in RAX. An object passed by value is destroyed exactly once.", "quantifier": "all prototypes with such a result, all parameters, all numbers of hooks before and behind with all result codes and values, whether or not the original function is called, all memory contents, all behaviour of the called functions that keeps the variables they do not own", "why_tests_cant": "a missing or repeated destructor shows only for classes that own something, on the path through result codes where it happens; tests count constructor calls for one class and one or two hooks, and a lost address in RAX is seen only by callers compiled to use it", "anchors": ["core/sourcehook/sourcehook_hookmangen_x86_64.cpp:399-419", "core/sourcehook/sourcehook_hookmangen_x86_64.cpp:460-512", "core/sourcehook/sourcehook_hookmangen_x86_64.cpp:619-930", "core/sourcehook/sourcehook_hookmangen_x86_64.cpp:932-1066", "core/sourcehook/sourcehook_hookmangen_x86_64.cpp:1125-1227"]}
{"id": "C90", "title": "A copy of a container holds what the container holds", "statement": "Copying a linked list, a sectored stack, a hash table or a string, by copy constructor or by assignment to another object, always succeeds without touching memory that is not there, and gives a container with the same elements in the same order (for the hash table: the same map, whatever the hash function and however often it grows on the way; for the string: the same text), in nodes, sectors or an array of its own. What the target of an assignment held is freed. Assigning a container to itself keeps its contents.", "quantifier": "all containers in any state reachable by their operations, all element types, all hash functions and growth policies, all choices of addresses by the allocator", "why_tests_cant": "The containers can hold anything and the hash table can grow at any point of the copy; tests copy a few small containers once", "anchors": ["core/sourcehook/sh_list.h:71-76,308-315", "core/sourcehook/sh_stack.h:29-37,116-140", "core/sourcehook/sh_tinyhash.h:61-74,353-449", "core/sourcehook/sh_string.h:47-52,87-101,336-340"]}
{"id": "C91", "title": "Hook functions generated at run time and hook functions of the macros treat the same handlers alike", "statement": "Let a call of a hooked function through a hook function made by the macros and a call through a hook function generated at run time (64-bit or 32-bit machine code) meet handlers that give the same result codes and return the same values in the same order, an original function that returns the same value, and no recall. Then both call the original function or neither does, and both return the same value. Each handler sees the same META_RESULT_STATUS, sees an override value in both calls or in neither, sees the same one, and behind the original function sees the same META_RESULT_ORIG_RET.", "quantifier": "all reachable states of the hook system and all histories in which such a call ran, all prototypes the generators take (results without special functions), all numbers of handlers with all result codes and values, all memory contents and behaviour of the called functions within the contract", "why_tests_cant": "a plugin may be built with either kind of hook function and the two come from separate code (macros, two code generators); tests run each with a few handlers and do not compare them", "anchors": ["core/sourcehook/sourcehook.h:131-139", "core/sourcehook/sourcehook.h:937-983", "core/sourcehook/sourcehook_hookmangen_x86.cpp:1356-1703", "core/sourcehook/sourcehook_hookmangen_x86_64.cpp:295-397", "core/sourcehook/sourcehook.cpp:492-604"]}
{"id": "C92", "title": "A .vdf file is parsed as it is on disk, and everything used for it is given back", "statement": "ProcessVDF on the oldest engine hands the parser the bytes of the file up to the first NUL, whatever the file system answers, without touching memory outside the buffer; without a file system, or for a file that does not open, it returns false and leaves the caller's buffers alone. On every path the key/value object is deleted exactly once and last, an opened file is closed and the scratch memory is freed. What the plugin loader is told is what the reader finds. The provider for the second engine does with every file what that for the first does on all engines but the oldest.", "quantifier": "all file names, file contents and sizes, all answers of the file system and of the parser, all buffers", "why_tests_cant": "short reads, unmeasurable or very large files do not occur on a healthy disk; leaks on error paths show only over time", "anchors": ["core/provider/source/provider_source.cpp:157-206", "core/provider/source/provider_source.cpp:613-641", "core/metamod.cpp:1197-1224", "core/provider/source2/provider_source2.cpp:168-208"]}
{"id": "C93", "title": "A hook function generated at run time on x86-64 returns a plain structure byte for byte as the rule has it", "statement": "Machine code generated for a function that returns a structure without special functions through a hidden pointer, executed with any hooks in place: each hook is told to write its structure into the plugin variable, the original function into the original variable; after a hook with MRES_OVERRIDE or more, all bytes of its structure are in the override value; every later call finds there the bytes of the last such hook, and the status is the highest result code so far. The original function is called exactly if no earlier hook said MRES_SUPERCEDE and the context agrees. When the function returns, the caller's place holds all bytes of the structure of the last hook that overrides, else those of the original function, RAX holds its address, and the stack pointer and the preserved registers are as before.", "quantifier": "all prototypes with such a result of any size, all parameters, all numbers of hooks before and behind with all result codes and structures, whether or not the original function is called, all memory contents, all behaviour of the called functions that keeps the variables they do not own", "why_tests_cant": "a copy of a few bytes too many or too few, or from the wrong variable, shows only for particular sizes and result codes", "anchors": ["core/sourcehook/sourcehook_hookmangen_x86_64.cpp:619-806", "core/sourcehook/sourcehook_hookmangen_x86_64.cpp:808-926", "core/sourcehook/sourcehook_hookmangen_x86_64.cpp:928-984", "core/sourcehook/sourcehook_hookmangen_x86_64.cpp:986-1066", "core/sourcehook/sourcehook_hookmangen_x86_64.cpp:1068-1123", "core/sourcehook/sourcehook_hookmangen_x86_64.cpp:1125-1188"]}
{"id": "C94", "title": "Making a slot writable on Windows and macOS adds the right to write and changes no other page", "statement": "On Windows, for a slot in a committed page without protection modifiers, and on macOS, for a slot in a mapped region, MakePageWritable succeeds; afterwards all bytes of the slot can be written, everything allowed before is still allowed, and no other page has changed. On macOS, and on Windows if the page could be read, the right to write is all that was added. GetPageBits tells exactly what such a page allows.", "quantifier": "all aligned addresses, all page sizes, all protections, all layouts of regions", "why_tests_cant": "the protection constants of the platforms and the neighbouring regions vary; a page made too open or left closed shows only in particular processes", "anchors": ["core/sourcehook/sh_memory.h:134-194", "core/sourcehook/sh_memory.h:197-231", "core/sourcehook/sourcehook_impl_cvfnptr.cpp:228-238"]}
{"id": "C95", "title": "Asking whether memory is readable answers right and leaves signal handling alone", "statement": "Where ModuleInMemory reads the memory and traps the fault (Linux without map files, macOS), each call answers whether the memory could be read, and afterwards the signal handlers of the process and the blocked signals are as before.", "quantifier": "all sequences of calls about readable and unreadable memory, all handlers the process has", "why_tests_cant": "test systems have map files, so the branch does not run; damage to the signal handling shows only at the next fault, elsewhere in the process", "anchors": ["core/sourcehook/sh_memory.h:234-252", "core/sourcehook/sh_memory.h:324-344", "core/sourcehook/sh_memory.h:346-372"]}
{"id": "C96", "title": "For functions that return objects, too, generated hook functions and those of the macros treat the same handlers alike", "statement": "As C91, for the results C91 leaves out: a plain structure returned through a hidden pointer (64-bit code) and an object of a class with constructor, copy constructor, assignment operator and destructor (64-bit and 32-bit code). Given handlers with the same result codes and objects of the same values in the same order, an original function that returns an object of the same value, and no recall, the generated function calls the original function exactly if the one made by the macros does, and the place the caller named holds an object with the value the other call returned. Each handler is called with the same status; the variable for the override value then holds an object with the same override value (one that is only constructed if there is none), and behind the original function the variable for the original value holds an object with the same original value.", "quantifier": "all reachable states of the hook system and all histories in which such a call ran, all prototypes with such a result, all numbers of handlers with all result codes and objects, all memory contents and behaviour of the called functions within the contract", "why_tests_cant": "objects travel through temporary places, variables and the hidden pointer of the caller in generated code, by value in the hook functions of the macros; tests compare neither the two nor what handlers in the middle of a call find", "anchors": ["core/sourcehook/sourcehook.h:937-983", "core/sourcehook/sourcehook_hookmangen_x86_64.cpp:619-926", "core/sourcehook/sourcehook_hookmangen_x86_64.cpp:986-1188", "core/sourcehook/sourcehook_hookmangen_x86.cpp:530-779", "core/sourcehook/sourcehook_hookmangen_x86.cpp:831-931", "core/sourcehook/sourcehook_hookmangen_x86.cpp:1055-1234"]}
{"id": "C97", "title": "META_RESULT_PREVIOUS shows the answer of the handler before in generated 32-bit hook functions as in those of the macros, in generated 64-bit ones never", "statement": "For prototypes as in C91 and a call without recall: in a hook function made by the macros and in one generated at run time for 32-bit code, each handler finds in prev_res (what META_RESULT_PREVIOUS reads) the result code of the handler called before it in the same pass, and MRES_IGNORED if it is the first of the pass; the second pass does not see the first. In a hook function generated for 64-bit code each handler finds MRES_IGNORED, whatever was answered before it, because prev_res is set before the handler is called instead of after it; so the two agree exactly where the handler before answered MRES_IGNORED or there was none.", "quantifier": "all prototypes of that kind, all numbers of hooks in front of and behind the original function with all result codes and values, all memory contents and behaviour of the called functions within the contract (in 32-bit code they leave prev_res alone), all reachable states of the hook system on the side of the macros", "why_tests_cant": "it takes two handlers of one generated hook function of which the second looks at META_RESULT_PREVIOUS; the tests of the generator compare calls and returned values only", "anchors": ["core/sourcehook/sourcehook.h:937-983", "core/sourcehook/sourcehook_hookmangen_x86.cpp:941-942", "core/sourcehook/sourcehook_hookmangen_x86.cpp:1019-1032", "core/sourcehook/sourcehook_hookmangen_x86_64.cpp:676-706"]}
{"id": "C98", "title": "What is read from FreeBSD's /proc/curproc/map is what the kernel wrote", "statement": "Where /proc/self/maps does not open, GetPageBits tells of an address in a mapping of /proc/curproc/map exactly the mapping's read, write and execute flags and of any other address that it found nothing, and ModuleInMemory tells exactly whether the whole range lies in one mapping. So after a successful MakePageWritable the slot of a virtual function is writable, everything allowed before is still allowed, and no other page has changed.", "quantifier": "all lists of mappings that do not overlap, all bounds, objects, flags and rests of lines, all addresses and lengths, all widths of unsigned long", "why_tests_cant": "the branch runs only on a system the tests are not run on; the lines and their number are unbounded, and what is wrong depends on the line before", "anchors": ["core/sourcehook/sh_memory.h:100-132", "core/sourcehook/sh_memory.h:296-322", "core/sourcehook/sh_memory.h:220-231"]}
{"id": "C99", "title": "Code generated by hopter has well-formed parameter lists for every number of parameters", "statement": "For each number of parameters up to the one asked for, shworker hopter writes each block of its input with every directive in a list of template or function parameters or arguments replaced by the entries it stands for, so that the list stays a list with one comma and one blank between entries wherever the directive stands and even without parameters; heads of templates and choices of template parameters vanish if there are no parameters; everything outside of blocks is copied, and a block without end is reported as a failure with nothing of it written.", "quantifier": "all numbers of parameters, all files of lines and blocks, all templates made of texts without @, numbers, lists in brackets with directives in any places, heads and choices", "why_tests_cant": "the result comes from 25 textual replacements one after the other, each of which can hit what another was meant for; templates and numbers of parameters are unbounded", "anchors": ["core/sourcehook/generate/shworker/fd_hopter.cpp:168-185", "core/sourcehook/generate/shworker/fd_hopter.cpp:255-332", "core/sourcehook/generate/shworker/fd_hopter.cpp:334-371", "core/sourcehook/generate/shworker/shworker.cpp:735-768"]}
{"id": "C100", "title": "A plugin that removes with SH_REMOVE_HOOK what it added with SH_ADD_HOOK leaves nothing of itself in SourceHook", "statement": "If one plugin adds any hooks with SH_ADD_HOOK (through hook managers with a prototype SourceHook can read) and later removes each of them by naming the same interface, function, handler and side - in any order, and whatever any plugin did in between - no removal faults, none of the added hooks is left, exactly the hooks named are gone and all others keep their places and order. If nothing happened in between and no hook named existed before, every list of hooks is exactly what it was, and every vtable slot without a hook holds the value it held before. Each of the three sample plugins does this in Load and Unload, and so do Metamod's bridge for server plugins and its provider for Source 2; the provider for the first Source engine keeps its hook on the commands of players.", "quantifier": "all reachable states of SourceHook, all lists of additions and removals, all operations of any plugin in between, all addresses, handlers and function descriptions the names in a sample's source may stand for", "why_tests_cant": "the number of hooks, the order and what other plugins do in between are unbounded; a test compares single runs", "anchors": ["core/sourcehook/sourcehook.cpp:100-202", "core/sourcehook/sourcehook.h:835-857", "samples/s1_sample_mm/sample_mm.cpp:86-122", "samples/s2_sample_mm/src/plugin.cpp:85-92", "samples/s2_sample_mm/src/plugin.cpp:178-185", "samples/s1_stub_mm/stub_mm.cpp:35-42", "core/vsp_bridge.cpp:150-173", "core/provider/source2/provider_source2.cpp:139-165", "core/provider/source2/provider_source2.cpp:394-428", "core/provider/source/provider_source.cpp:131-145"]}
{"id": "C101", "title": "The version a build reports, the version the build system works with and the name of the package are what product.version and the number of commits say", "statement": "The header generator reads from product.version exactly the three leading numbers (the third as long as can be) and the tag up to the end of the line, and refuses the file exactly when it does not begin with three numbers; the build system then works with 1.0.0 and leaves out the second Source engine, and otherwise works with the same three numbers. The version text is the numbers, then '-' and the tag if there is one, then '+' and the number of commits if the tag is dev; it determines the numbers, the tag and the number of commits of a dev build if no tag contains a plus sign. Each macro of the header, read as C reads it, is the text it is named for if tag, hash and count contain neither quotes nor backslashes. With no tag or the tag dev, both packaging scripts name the package after the numbers and the number of commits.", "quantifier": "all contents of product.version, all numbers and tags of any length, all texts git prints, every set of characters the digits pattern matches that has no separator or quote in it", "why_tests_cant": "the file, the tag and the numbers are texts of any length; a build tries one of them", "anchors": ["support/buildbot/generate_headers.py:48-84", "AMBuildScript:62-74", "AMBuildScript:84-87", "support/buildbot/package.pl:38-66", "support/buildbot/helpers.pm:64-73", ".github/workflows/build-release.yml:132-143", "public/metamod_version.h:45-55", "product.version:1"]}
{"id": "C102", "title": "A build reports to plugins the engine it was made for", "statement": "Whatever numbers the SDKs give the engines, as long as they differ, a build for an engine reports through GetSourceEngineBuild the number ISmmPluginExt.h documents for that engine; the build for Episode One reports the original engine instead exactly when the game is ship. A build whose number belongs to no engine of its provider does not compile. Two builds report the same number only for the same engine, and none reports unknown or the deprecated number; descriptions go with numbers one to one. If the library of each backend is built with the SDK of its name, whatever the loader detects in a game of the first Source engine leads to a library that reports a documented number, and different backends to different engines. Against expectation, games the loader knows only by ServerGameClients005 get no hook on the commands of players, because the provider asks for 003 and 004 alone.", "quantifier": "all assignments of numbers to the engines, all engines, all values of the -game parameter, all facts the loader may find in a game, all states of the bridge", "why_tests_cant": "each engine is another build with another SDK, the SDKs are not part of the repository, and what a game answers is open", "anchors": ["core/provider/source/provider_source.cpp:97-134", "core/provider/source/provider_source.cpp:208-323", "core/provider/source2/provider_source2.cpp:210-234", "core/ISmmPluginExt.h:38-66", "core/metamod.cpp:228-240", "core/metamod.cpp:1067-1070", "loader/loader.cpp:393-398"]}
{"id": "C103", "title": "The sample plugins ask for everything before they touch anything", "statement": "Whatever interfaces a game has, and for any list of interfaces asked for with GET_V_IFACE_CURRENT and GET_V_IFACE_ANY, Load returns true exactly if all are there. If one is missing, no hook and no listener has been added, and the error buffer holds as much of \"Could not find interface: \" and the name of the first missing one as fits, with a NUL, the rest being unchanged; without a buffer or with size 0 nothing is written. If Load of a sample returns true, each of its hooks has been added, in order, to the object the game gave for the very interface the hook is declared with, and none of these is NULL; the listener is added exactly when it is needed. The first sample takes a command from the game exactly for the four commands of an entity in use, shows one dialog of the right kind, uses no dialog after deleting it and leaves none behind; the menu has eight different items, none cut. Against expectation, players are told that their name changed exactly when it did not.", "quantifier": "all lists of interfaces and answers of the factories, all buffers and sizes, all values of the variables before, all entities and commands, all names and network ids", "why_tests_cant": "no game lacks an interface on demand, and the plugins are built only with the SDKs, which are not part of the repository", "anchors": ["core/ISmmPlugin.h:565-593", "samples/s1_sample_mm/sample_mm.cpp:63-108", "samples/s1_sample_mm/sample_mm.cpp:150-270", "samples/s2_sample_mm/src/plugin.cpp:67-92", "samples/s1_stub_mm/stub_mm.cpp:24-38"]}
{"id": "C104", "title": "Fatal errors of the loader are printed and logged", "statement": "Every call of mm_LogFatal passes what its format asks for, so that its message can be printed whatever the texts and numbers are; texts and numbers come out unchanged at their places. The message is printed once, and appended as one entry with the time to the log file, to metamod-fatal.log in the working directory if that cannot be opened, and nowhere if neither can; no other file changes and nothing already in it; after any sequence of messages the log has one entry for each in order. The time fits its buffer and determines the second. If the library of the detected engine cannot be opened, the reason the system gives goes to the log beside the loader; if it can, nothing is reported. Against expectation, if the loader does not know its own path the message is made from an array nobody has written to.", "quantifier": "all formats and arguments, all times of a struct tm, all contents of files and choices of which can be opened, all sequences of messages, all paths and answers of dlopen", "why_tests_cant": "the messages occur only in broken installations, each in its own way, and an uninitialised array usually holds something harmless", "anchors": ["loader/loader.cpp:43-76", "loader/loader.cpp:120-157", "loader/gamedll.cpp:376-380", "loader/gamedll.cpp:471-481", "loader/serverplugin.cpp:165-171"]}
{"id": "C105", "title": "On Windows dedicated servers are allowed once per request and the game's table is put back", "statement": "If the engine requests the server configuration only when no earlier request waits for its call, then the first call of AllowDedicatedServers through the table of the object handed out answers true, every other call is answered by the game's own function with its own arguments, nothing fails, no assertion fires, and once the calls have caught up all memory is as the game had it. Against expectation, after two requests before the first call the loader's own function is saved as the original, the second call writes NULL into the table and the third calls it; with two tables the call through one restores the other.", "quantifier": "all sequences of requests and calls, all objects and tables, shared or not, all contents of the slots, with and without assertions", "why_tests_cant": "the code exists only on Windows and needs an engine that asks twice; the first calls after it look right", "anchors": ["loader/gamedll.cpp:259-265", "loader/gamedll.cpp:345-351", "loader/gamedll.cpp:691-725", "loader/gamedll.cpp:809-819"]}
{"id": "C106", "title": "Reconfiguring a manual hook", "statement": "In every reachable state of SourceHook, SH_MANUALHOOK_RECONFIGURE never faults, leaves the plugin without a hook manager for the hook, removes all hooks from slots this manager served alone and keeps all others; the next SH_ADD_MANUALHOOK adds its hook to the slot the new index and table offset give. Adding, SH_MCALL and the recall of a handler go through the same slot exactly if the this offset is that of the declaration. Against expectation, the this offset given to the macro has no effect on adding and removing; SH_MCALL passes the unadjusted pointer as this; and where another plugin hooks the same function the old hooks stay and can no longer be removed by handler.", "quantifier": "all reachable states of the registry, all manual hooks, plugins, offsets, indices, objects, handlers and contents of memory", "why_tests_cant": "the test of the repository reconfigures only the index, with offsets 0 and one plugin", "anchors": ["core/sourcehook/sourcehook.h:701-702", "core/sourcehook/sourcehook.h:859-935", "core/sourcehook/sourcehook.cpp:399-432"]}
{"id": "C107", "title": "Keys of another type in the hash table", "statement": "AltFindOrInsert and FindAlt of the hash table never fault, and mixed with all other operations in any order behave as on a finite map from the empty table on, if comparison and hash supplied for the other key type are those of the key made of it. FindAlt needs no hash: for any comparison it returns an entry whose key compares equal, and end() exactly if there is none. The condition on the hash is needed: a hash that leads to another bucket makes a second node for a key that is stored, and the table stores no map any more.", "quantifier": "all key types, hash functions, comparisons, growth policies, tables reachable by any sequence of operations, keys and values", "why_tests_cant": "the tests of the repository use the hash table with one key type only", "anchors": ["core/sourcehook/sh_tinyhash.h:23-27", "core/sourcehook/sh_tinyhash.h:123-152", "core/sourcehook/sh_tinyhash.h:498-511"]}
{"id": "C108", "title": "What is built and where SDKs are looked for", "statement": "Without --targets the build script builds for those of x86 and (with the second generation of AMBuild) x86_64 for which a compiler is found, and stops exactly if there is none; with --targets all must be found. An SDK is taken from the root given, else from the directory the environment variable names, else from the nearest directory upwards that has it; the search ends for every current directory. For every architecture and platform exactly the generator of hook managers that the compiled code uses is linked in; there is none only on 64-bit Linux, where MakeHookMan returns NULL. Against expectation, the exception for an unknown architecture is a NameError, and a variable that names no directory hides an SDK beside the sources.", "quantifier": "all lists of targets, compilers found, environments, file systems, current directories, SDK names; all architectures and platforms", "why_tests_cant": "the build is tried on a few machines with a fixed layout of directories", "anchors": ["AMBuildScript:4-18", "AMBuildScript:35-55", "AMBuildScript:76-82", "AMBuildScript:99-106", "core/AMBuilder:42-45", "core/sourcehook/sourcehook_hookmangen.cpp:23-29"]}
{"id": "C109", "title": "The package has each library where it is looked for", "statement": "For all SDKs whose names are apart and all targets of one platform, PackageScript puts the core library of each SDK and a loader under the name games use into the directory games with that engine look at; no library overwrites another; on Linux, wherever the package is unpacked, the loader opens exactly the packed core library of the backend it detected; each loader looks for a game library with its own name; each target has a vdf file naming its loader. The names in backend_names are apart. Against expectation, the loader is built for macOS though the names it needs are undefined there, metamod.vdf is packed without the library it names if only 64-bit targets are built, and the library of one SDK can be taken for that of another whose name it contains.", "quantifier": "all lists of SDKs and targets, directories of AMBuild, directories the package is unpacked in, backends", "why_tests_cant": "a package is tried for a few SDKs and games; nothing checks that names in five build files and two sources agree", "anchors": ["loader/AMBuilder:4-29", "core/AMBuilder:8", "support/buildbot/PackageScript:6-51", "loader/gamedll.cpp:63-83", "loader/loader.cpp:110-152", "support/metamod.vdf:3"]}
{"id": "C110", "title": "The package of the sample plugin", "statement": "For every name of a plugin and every list of SDKs built for one target each, the package script recovers the SDK from the name of each library, puts the library where the .vdf file in the same package says, in the directory Source 2 games use, and writes no path twice; reading the .vdf file gives back alias and file. If an SDK is built for two targets of one platform, both libraries are copied to the path of the last target.", "quantifier": "all names of plugins, SDK names without dots, lists of SDKs and targets, aliases and files without quotes", "why_tests_cant": "the sample is built for one SDK and one target at a time; the collision needs an SDK with two targets", "anchors": ["samples/s2_sample_mm/AMBuilder:8", "samples/s2_sample_mm/PackageScript:19-58", "samples/s2_sample_mm/PackageScript:88-102"]}
{"id": "C111", "title": "The version of the sample plugin", "statement": "Replacing the places for the hashes, the number of commits, the tag and the commits after it one after another fills all of them at once, in every version, if the values and the text around have no braces; a place whose variable is not set is an error exactly if the version has it. From what git describe prints, the tag and the number of commits are recovered for every tag; any other text is a tag with no commits after it. Against expectation, outside a repository the places for the tag and the commits after it are errors while the others become 0; a tag that looks like the output of git describe is taken apart; a value with a place in it is filled again.", "quantifier": "all versions, values, outputs of git", "why_tests_cant": "the sample uses one version with one place, built within a repository", "anchors": ["samples/s2_sample_mm/AMBuildScript:225-262"]}
{"id": "C112", "title": "The description of the sample plugin", "statement": "Each entry of the metadata is that of plugin-metadata.json, if the file has one, else that of the sample; the file is written exactly if it is missing or lacks an entry of the sample; afterwards it has the metadata used; a second run uses the same metadata and writes nothing.", "quantifier": "all files and all entries of the sample", "why_tests_cant": "the comparison of lengths stands for a comparison of keys, which holds for all dictionaries only because keys are distinct", "anchors": ["samples/s2_sample_mm/AMBuildScript:296-311"]}
{"id": "C113", "title": "A new commit makes a new version", "statement": "The files of git on which the version of a build depends cannot all stay as they are when the commit changes. On a branch with a file of its own that file is watched, on a commit of its own .git/HEAD.", "quantifier": "all names of branches, hashes and states of the repository before and after", "why_tests_cant": "a test repository has one branch and one way to store it; the claim is about each pair of states of a repository", "anchors": ["support/buildbot/Versioning:19-37", "samples/s2_sample_mm/AMBuildScript:33-50", "samples/s2_sample_mm/AMBuildScript:230-235"]}
{"id": "C114", "title": "The directory of the build bots", "statement": "The script of the build bots runs configure.py with a directory OUTPUT that is empty, or that holds both files of a configured build and is left as it was; nothing outside it is touched; the script fails before that exactly if OUTPUT is a file or a link to a directory that is not configured. CC and CXX are those of the configuration of the bot where it names them; the rest of the environment is passed on.", "quantifier": "all states of the file system, all configurations and environments", "why_tests_cant": "the states of a directory between interrupted runs are unbounded", "anchors": ["support/buildbot/bootstrap.py:35-43", "support/buildbot/bootstrap.py:63-70", "support/buildbot/bootstrap.py:98-101"]}
