# Formal model of Metamod:Source - design

Source: `/repo` (alliedmodders/metamod-source at the pinned commit), read as text, never built.
Model and proofs: Lean 4.33.0, Lake project in `lean/`, modules under `lean/Verif/`.

Contents: trusted base; conventions; code modelled; contracts; plan per property; findings; what is not
modelled; axioms per theorem.

## Trusted base

* Lean's kernel, and the three standard axioms `propext`, `Classical.choice`, `Quot.sound`.  The last section
  lists, for every theorem named in MANIFEST.json, exactly which of them it depends on; modules of property
  theorems also end with `#print axioms` lines, so the build log shows the same.  No `sorry`, no new axioms, no
  `native_decide`, no `bv_decide`, no `unsafe`/`implemented_by`.
* The transcription of C++ into Lean definitions.  Every definition cites file and lines; each model file
  begins with what was simplified.
* The contracts below, which say what code outside the model does.
* For C73 and C74: the IA-32 decoder (`Jit32/Decode.lean`); for C74 the meaning of the instructions, the
  laws of the floating point stack (`Fpu`: a value loaded from memory and stored again comes back, a
  signalling NaN quietened) and the i386 calling convention of GCC (`Jit32/Machine.lean`).
* For C20 and C63-C66: the x86-64 decoder (`Jit/Decode.lean`), the meaning of the instructions
  (`Jit/Machine.lean`, `Page/Thunk.lean`) and the 64-bit Windows calling convention (`Jit/Machine.lean`),
  written from the processor manuals and the convention, not from the code under test.
* Platform: the Linux x86-64 branches of the code, release build (`NDEBUG`, AMBuildScript:211: `assert` is
  compiled out).  The exception is the 64-bit code generator (C63-C66), which only exists for 64-bit Windows
  (core/AMBuilder:44-45): its MSVC branches are modelled.

## Modelling conventions

* C++ objects that have identity (hooks, per-object lists, function records, hook managers, stack frames,
  plugins, list nodes) get never-reused natural-number ids; pointers are ids.  A pointer whose id is not live is
  dangling; dereferencing it is a distinct outcome.  Consequence: address reuse by the allocator is not
  modelled; a dangling pointer stays dangling.  Containers, buffers, the page allocator and generated code are
  modelled at the level of addresses and bytes.
* Undefined behaviour (dangling or null dereference, out-of-bounds access, reading storage never initialised)
  is an explicit outcome, never a default value; the theorems say when it cannot happen, the findings when it
  does.
* External code (handlers, original functions, plugins, the engine, listeners, callees of generated code) is
  adversarial: arbitrary operations at arbitrary times or arbitrary answers.  In the registry machine
  (`SH/Loop.lean`) it is a list of operations interleaved with the hook loop.  In the plugin manager, the core
  and the loader it is a script `Scr`, a finite tree of calls that every callback may perform, to any depth.
* Loops are structural recursion or folds; where termination is itself the question, fuel is used and
  (non-)termination is a theorem for every amount of fuel.
* Property statements use small specification functions kept apart from the model's helpers.
* Beside each theorem an `example` shows that its hypotheses can be met.  A name ending in `_partial` says that
  the property as stated does not hold or is not covered in full; the doc comment says what is missing.

## Code modelled

| source | model |
|--------|-------|
| core/sourcehook/sourcehook.cpp, sourcehook_impl*.h/.cpp (registry) | `SH/Types`, `SH/HookId`, `SH/Registry`, `SH/RegOps` |
| core/sourcehook/sourcehook.cpp, sourcehook_impl.h, generate/sourcehook.hxx (hook loop, contexts, recalls, SH_CALL) | `SH/Loop` |
| core/sourcehook/sourcehook_impl_cproto.* | `SH/Proto` |
| core/sourcehook/sourcehook_hookmangen.cpp | `SH/Autogen` |
| core/sourcehook/sourcehook_impl_cvfnptr.cpp:31-85 (call thunk) | `Page/Thunk` |
| core/sourcehook/sh_list.h, sh_vector.h, sh_stack.h, sh_tinyhash.h, sh_string.h | `Cont/List`, `Cont/Vec`, `Cont/Stack`, `Cont/Hash`, `Cont/Str` |
| core/sourcehook/sh_pagealloc.h, sh_memory.h, sh_asm.h | `Page/Alloc`, `Page/Mem`, `Page/GenBuf` |
| core/sourcehook/sh_asm_x86_64.h | `Jit/Asm` |
| core/sourcehook/sourcehook_hookmangen_x86_64.cpp | `Jit/PubFunc`, `Jit/HookFunc`, `Jit/HookAccept` |
| core/sourcehook/sourcehook_hookmangen_x86.h (the `IA32_*` functions) | `Jit32/Asm` |
| core/metamod_plugins.cpp, registration functions of core/metamod.cpp | `Mgr/Model` |
| core/metamod.cpp (factories, VSP listener, first load) | `Core/Model` |
| core/metamod.cpp (plugin file, paths, vdf), provider_source.cpp ProcessVDF | `Core/PluginFile`, `Core/Vdf` |
| core/metamod_console.cpp | `Core/Console`, `Core/Report` |
| core/metamod.cpp (LogMessage, FormatIface, InterfaceSearch) | `Core/Report`, `Util/Iface` |
| core/metamod_util.cpp, loader/utility.cpp | `C/Buf`, `Util/Path`, `Util/Text`, `Util/Misc` |
| core/provider/source/provider_source.cpp (user messages), provider_source_console.cpp | `Prov/UserMsg`, `Prov/CmdList` |
| core/provider/source2/provider_source2.cpp | `Prov/Source2` |
| core/sourcehook/sourcehook_pibuilder.h | `SH/PiBuilder` |
| core/sourcehook/sh_memfuncinfo.h | `SH/MemFunc` |
| loader/utility.cpp (mm_GetLibraryInfo) | `Util/Elf` |
| loader/loader.cpp, loader/gamedll.cpp, loader/serverplugin.cpp | `Loader/Backend`, `Loader/Model`, `Loader/GameInfo` |

## Contracts

* **Registry operations** (`AddOk`, `RegOk` in `SH/RegAdd`, `SH/LoopInv`): a plugin's public function belongs to
  it alone and its hook function is the one the environment knows; no vtable-wide hook is added to a function
  that has none left while its vtable-wide hooks are being run; `RemoveHookManager` is not called from inside a
  hooked call; `UnloadPlugin` from inside a hooked call requires that every hook's owner still has its manager.
  What happens otherwise is shown in `SH/LoopFault` (C12, C14, C15, C16 are partial for that reason).
* **Hook loop** (`Ok`): objects are not null; SH_CALL is on a hooked function; a handler recalls its own function
  on its own object while the function is still hooked; results are among the four; foreign code asks only for
  forced resolution of unloads; hooked slots are not overwritten by foreign code.
* **Memory** (`EnvOk`): memory that can be made writable is mapped.  `mmap` (`MapOk`): page-aligned, not null, no
  overlap with what is mapped.  `mprotect` as in `Page/Mem`.  Objects are smaller than 2^63 bytes; `new` does
  not fail, except where a failing allocation is the subject (C25, C52).
* **C library**: character tables of the "C" locale for -128..255; `vsnprintf`, `realpath`, `access`, `stat`,
  `fopen`, `getcwd`, `dladdr`, `/proc/self/cmdline`, `SteamAppId` are parameters; so is `mm_GetLibraryInfo` for C41, while C68 models it for Linux on
  x86-64 (there the system's loader is trusted to have mapped the pages of readable segments).
* **Providers**: `GetUserMessageInfo` answers from a list and ends it with `false` or a call of `Error`; `setjmp`/
  `longjmp` resume where they should; the engine's command list ends with NULL; the file systems and the order of
  the Source 2 engine's events are parameters (`Orderly` in `Prov/Source2Props`).
* **Plugin manager**: `dlopen`, `CreateInterface`, `GetApiVersion` and the like do not call the manager; ids do
  not overflow.  Where callbacks are limited (Retry, announcement, events) the theorem's name ends in `_partial`
  and the comment says how.
* **Generated code**: the code bytes do not change while they run; `GetFuncInfo` succeeds; callees keep the
  registers the convention preserves and the private part of the caller's frame (`Provided`); sizes and indices
  are within `GenOk`; a function returning nothing is not flagged RetMem (the hidden pointer would be saved at
  offset 0, over the return address); frames of more than a page are not probed by the code, so the stack below
  must be there already.

## Plan per property

| id | modelled | proof |
|----|----------|-------|
| C01 C02 C07 C13 C17 C19 | SourceHook registry (hook managers, function records, per-object lists, id table) as a state machine | invariant over all operation sequences; refinement to an abstract list of hooks (`view`) |
| C03 C04 C05 C15 C16 | same machine with the context stack and the steps of `GetNext`, adversarial interleaving | invariants with a ghost history of called hooks |
| C06 C51 | hook function macros as a program over the context; results folded | induction along the run; negation for one accessor |
| C08 C09 C10 | vtable memory as a function of addresses, hook manager lists | invariant |
| C11 C12 | SetIgnoreHooks/ResetIgnoreHooks, DoRecall in the same machine | invariant; negation and partial theorem where the code does not meet the claim |
| C14 | pending unload list and context stack | invariant over all schedules |
| C18 | cleanup tasks attached to recycled context slots | false as stated (stale task pointer): negation and partial.  Because ids are never reused, a stale task that meets another record at the same address is not expressible |
| C20 | thunk encoder and a decoder for its instructions | all 64-bit addresses |
| C21 C22 C23 C24 | pointer-level ring list, sectored stack, vector, hash table | refinement to `List` / finite map |
| C25 C50 C52 | page allocator, protection changes, code buffer | invariants, arithmetic, refinement |
| C26-C31 C53 C55 | plugin manager with callbacks as scripts | every execution is a sequence of atomic steps (`Mgr/Sound`); invariants over steps; negations |
| C32 C48 C56 | factories, listeners and VSP state of the core | induction over listeners, invariants over scripts.  The statement of C32 was corrected to what the code does: listeners are asked in list order whatever the real factory would answer |
| C33 C34 | FormatIface/InterfaceSearch on character buffers | decision logic, termination and non-termination theorems |
| C35-C41 C54 | string utilities on buffers with a bounds outcome | decision logic, round trips |
| C42 | prototype comparison | decision logic |
| C43 C45 | loader protocol as a state machine with callbacks | invariants |
| C44 | engine detection | case analysis over all availability predicates |
| C46 C57 C58 | plugin file, path and vdf handling on buffers | refinement to a line grammar; negations |
| C47 | string class on buffers | refinement |
| C49 | generated hook manager table | invariant |
| C59 C60 C61 | console command, its listing, log messages | decision logic against separate specifications; negations |
| C62 | gameinfo reader on buffers | refinement to a line grammar; negations |
| C63 | instruction writer against an independent decoder | round trip for all registers, displacements and immediates |
| C64 | generated public function | execution on the machine for all states and answers |
| C65 | generated hook function | refinement: the bytes simulate the C function call for call, for all prototypes, states and answers; three departures proved |
| C66 | acceptance of prototypes, classification of returned values | decision logic against a separate specification; one departure proved |
| C67 | decoding of pointers to member functions (Itanium and MSVC) | decision logic against the ABI's representation; two departures proved |
| C68 | `mm_GetLibraryInfo` on ELF memory | refinement to the set of readable loaded segments; induction over the program headers |
| C69 | user message list, detour of `Error` | byte-level memory with page protection; induction over the server's list; one departure proved |
| C70 | linked list of commands of old engines | refinement of the pointer list to a Lean list, induction over operations; two departures proved |
| C71 | Source 2 provider | invariant by induction over orderly engine events; refinement of the search paths; six departures proved |
| C72 | `CProtoInfoBuilder` on the modelled vectors, read by `CProto::Fill` | round trip by induction over the calls; exact condition for the pointer to dangle |
| C73 | 32-bit writer (`GenBuffer` with `IA32_*`) | round trip through an independent decoder for every function; seven departures proved |
| C74 | `GeneratePubFunc` for 32-bit (`Jit32/PubFunc.lean`) | execution of the written bytes on the IA-32 machine, both branches, all states |
| C75 | `PassInfoSupported`, `AutoDetect*`, `Generate`, sizes, alignment and frame of the 32-bit generator (`Jit32/HookAccept.lean`, `HookFunc.lean`) | decision logic outright against a bit-level specification; layout by induction over the variables; seven departures proved |
| C76 | `GenerateHookFunc` of the 32-bit generator with all its parts (`Jit32/HookFunc.lean`), run on the machine of C74 | refinement: a relational logic (`Ref`) between instruction lists and the C program of `Jit32/HookSpec.lean`, with an invariant on registers, stack, private words and visible memory; induction over parameters and over the loop. `accepted_hookOk` says which accepted prototypes are covered. `_partial`: by-value objects with a destructor or copy constructor, where the code does otherwise (three departures proved by runs of the bytes); 32 KB of parameters; `vtblOffs < -128`; an FPU stack that is not empty on entry |
| C77 | `VspBridge`, `GameDllBridge`, `Notify_DLLInit_Pre/Shutdown_Pre` of the Source provider, `mm_UnloadMetamod` (`Core/Bridges.lean`) | case analysis of each call; invariants by induction over programs with nested commands. `_partial`: `plugin_unload` inside itself, another command at a second `Load`, and a shutdown of the game inside the command, where the code does otherwise (proved) |
| C78 | `DoInitialPluginLoads`, the paths of `OnLevelShutdown`, the variables of `mm_StartupMetamod`, `GetCommandLineValue`, `GetConVarString`, `CreateConVar` of both providers, `InitializeVSP`, `GetFileOfAddress` (`Core/Sources.lean`) | computed outright for all texts on the buffers of C38; the command by C36. `_partial`: paths too long for the array and doubled separators; a list on the command line is read once only, an empty variable in Source 2 and a directory that cannot be resolved are undefined behaviour (proved) |
| C79 | `GlobCommand`, `LocalCommand_Meta`, `Hook_ClientCommand` of both providers, `Command_ClientMeta`, the reading of words in `Command_Meta`, `CMDMSG`, `ReplyCredits`, `ReplyVersion`, `meta info`, `ConPrintf`, `ClientConPrintf`, `LogMsg`, `Query`, `QueryRunning`, `QueryHandle` (`Core/Commands.lean`) | the texts outright, the list by C60, the console's words as a refinement of `cmdMeta` (C59), log messages by C61, queries over the plugin manager's invariant (C26). `_partial`: long log messages lose their newline; a plugin that asks for its own status inside `Load`, one that does not run and says nothing, and one without a description lead to undefined behaviour (proved) |
| C80 | the text of /proc/self/maps: `getline` into a buffer that keeps old bytes, `strtoul` with base 16, the flags, in `GetPageBits` and `ModuleInMemory` (`Page/MapsText.lean`) | round trip against the kernel's format (`%08lx-%08lx rwx…`, a specification), refinement of the model of C50. Not claimed for other texts: a cut line is read past its end (proved); ranges over two mappings, mappings without rights and ranges around the end of memory are answered wrongly (proved) |
| C81 | `adapt`: the change of the server plugin's own table in `ServerPlugin::Load` (`Loader/Model.lean`), the layouts of the engines as specification (`Loader/TableProps.lean`) | the full table of 28 engines, and an invariant over all programs (`Loader/Table.lean`). `_partial`: a second Load, which follows a failed one, shifts the table again; then the engine calls wrong functions (`second_load_shifts`) |
| C82 | the contexts of both generators: constructors, destructors, `Clear`, `BuildProtoInfo`, `AddVarToFrame`, `GetPubFunc`, and `MakeHookMan`/`ReleaseHookMan` around them, with the memory they allocate block by block (`Gen/Context.lean`) | invariant over all sequences of calls (`Gen/ContextInv.lean`); the round trip through memory to `CProto::Fill` (C42); the decision to generate is that of C66 and C75. Fails for 64 bits: the destructor leaves two arrays (`released64_leaks`); and for 32 bits with GCC: the generator's own flag is handed over, so that the prototype is not compatible with the request if an object with a destructor is passed by value (`compat32_iff`, `forced_incompatible`) |
| C83 | `RegisterConCommand`, `RegisterConVar`, `UnregisterConCommand`, `UnregisterConVar`, `IsConCommandBaseACommand`, `CreateConVar` of both providers, `RegisterConCommandBase` and its opposite, the deletion of Metamod's own variables (`Prov/ConReg.lean`); the engine's flags and lists are external. The calls are those the manager's model (C53) logs | the log played to the provider, by induction over it; composed with C53 for unloading and with C70 for the list of old engines. Fails if a listener registers while the plugin is being unloaded (`unlink_register_stays`); on Source 2 a base object is always taken for a variable (`base_source2`) |
| C84 | `shworker iter`: `ExprParser`, `DoReplace`, `replace_vars`, `find_first_directive`, `find_section_end`, `do_input`, `action_iter` on files that open (`Shw/Worker.lean`); `std::string`, `sprintf`, `atoi` and the files are external, running out of a text and `int` overflow are undefined behaviour. Not modelled: what is left in the output file when an exception ends the run, the messages, `shworker hopter`. As a test of the model (not a proof), it was run on core/sourcehook/generate/sourcehook.hxx with the argument 20 and gave core/sourcehook/sourcehook.h byte for byte (451361 characters) | expressions: the grammar as a tree with its text and value; the parser finds the value of every tree, and whatever it accepts is the text of one. Templates: a tree with its text and meaning; `replace_vars` on the text is substitution in the tree, then by induction over the number of directives. Partial: see `Tm.WF`; `eleven_arguments`, `neq_with_eq`, `negative_rejected` and others show why |
| C85 | core/sourcehook/FastDelegate.h with the static function hack (`Deleg/Model.lean`): `SimplifyMemFunc::Convert` for each size, `DelegateMemento`, `ClosurePtr`, `FastDelegate`, and `CMyDelegateImpl` of the hook macros. What the compilers do with pointers to members (representation, call, `==`) is the specification `Gen` with the instances `itanium` and `msvc`; the adjustment for virtual bases is an arbitrary function of the class. Not modelled: `FastDelegate<R(Params...)>`, the safe bool conversion, compilers other than these two | a delegate variable refines a `Bound` value over all sequences of operations; equality and emptiness then by cases; the order from the order of byte strings |
| C86 | the same generated code as C65 (`Jit/HookFunc.lean`), executed on the machine of `Jit/Machine.lean`. What the called functions promise is the specification `Jit/RuleSpec.lean`: the context hands out the hooks in order and then null, GetOverrideRetPtr and GetOrigRetPtr give the two variables, a hook leaves its result code in `cur_res`, and nobody changes what is not theirs (a hook that calls the original again through the `RETURN_META_NEWPARAMS` macros is outside). Objects returned in memory are outside too | the C function of C65 is run symbolically: each part keeps an invariant on memory (status, override value, original value, tables), by induction over the hooks; the rule follows for the state at the end; composed with `hook_refines_partial` |
| C87 | the same generated 32-bit code as C76 (`Jit32/HookFunc.lean`), executed on the machine of `Jit32/Machine.lean`. What the called functions promise is the specification `Jit32/RuleSpec.lean`, as for C86; values are byte sequences, so floating point results, objects in EAX:EDX and objects returned through the hidden pointer are inside. Results with constructor, destructor, copy constructor or assignment operator are outside | as C86: the C function of C76 is run symbolically under an invariant on memory (status, override and original value, parameters, text, tables), by induction over the hooks; composed with `hook_function_partial` |
| C88 | the same generated 32-bit code, for results of a class with all four special functions, returned through the hidden pointer. `Jit32/ClassSpec.lean` has the rules of C++ about the life of objects as a machine over places (`live`), the calls that are wanted, and what the called functions promise; values of objects are followed by that machine, not by memory | `ClassRun.lean` runs the C function of C76 under an invariant on memory by induction over the hooks, which gives the calls made; `ClassProps.lean` runs the machine of object lives over those calls, by induction over the hooks again. A class without default constructor breaks the rule (`unconstructed_assigned`) |
| C89 | the generated 64-bit code, for results of a class with all four special functions, returned through the hidden pointer. `Jit/ClassSpec.lean` has the rules about the life of objects as a machine over places (`live`), the calls wanted and what the called functions promise | `ClassRun.lean` runs the C function of C65 under an invariant on memory by induction over the hooks; `ClassProps.lean` runs the machine of object lives over those calls, and takes both to the machine code with C65's refinement. Two parts of the statement are false: RAX ends as the last destructor left it (in `class_results_partial`, from `result_lost`), and objects passed by value are destroyed by every hook, the original and the hook function (`parameter_destroyed_again`) |
| C90 | copy constructors and assignment operators of `List`, `CStack`, `THash` and `String` (`Cont/Copy.lean`), on the container models of C21, C22, C24 and C47; each container has its own memory, new addresses come from the allocator (`na`). `CVector` has them in C23 | induction over the elements, sectors or entries of the source, with the representation invariants of those properties. `_partial`, because self-assignment does not keep the contents (list and hash table are emptied, the stack keeps its size without sectors, `strcpy` of the string overlaps) and because a stack of a type without default constructor reads elements never assigned; the copied hash table counts its buckets twice |
| C91 | nothing new: the macro-made hook functions are part of the machine of `SH/Loop.lean` (C06), the generated ones are machine code (C86, C87) | `Jit/Alike.lean`: both specifications are reduced to the list of (result code, value) of the handlers (`Same`, for an arbitrary encoding `enc` of the abstract values of the machine as bytes); `call_outcome` and `handler_sees` on one side, `hook_rule`, `status_highest`, `override_last`, `orig_called_iff` on the other. META_RESULT_PREVIOUS of the generated functions is not part of `Jit/RuleSpec.lean` and so not compared; results with special functions are C96 |
| C92 | `KVLoadFromFile` and `SourceProvider::ProcessVDF` (`Prov/KvFile.lean`): file system, scratch memory and parser are parameters, bytes nobody wrote are `none`, what was done is recorded as events | case analysis; `kv_ok_iff` says exactly when nothing undefined happens. `_partial`: the result of `Read` and the sign of `Size` are not looked at (findings), so the claim holds for file systems that deliver what `Size` said. `vdf_provides` ties the reader to the parameter `Kv` of `providerVdf` in `Core/Vdf.lean` (C58). `Prov/KvFile2.lean`: the same function of the provider for the second engine, written out separately and proved equal |
| C93 | the same generated 64-bit code (C86, C89), for structures without special functions returned through the hidden pointer; the bytes of the three variables and of the caller's place are followed in memory. `Jit/PlainSpec.lean`: names of values stand for byte lists (`N`), what the called functions promise, the calls wanted, the rule for the bytes returned (`ruled`) | `PlainRun.lean` runs the C function of C77 under an invariant on memory by induction over the hooks; the copies (`move`) are shown to carry all bytes because the variables lie apart (`Room`). The caller's place is assumed to lie outside the frame (`Beyond`) |
| C94 | the Windows and macOS branches of `GetPageBits`, `SetMemAccess`, `MakePageWritable` (`Page/MemOther.lean`); `VirtualQuery`, `VirtualProtect`, `vm_region`, `mprotect` are functions on a table of pages or a list of regions, written from their documentation | case analysis over the protection constants against a table of rights (`winAllows`), arithmetic on pages, induction over the regions. Outside the hypotheses: `win_widened`, `win_modifier_lost`, `mac_unmapped`, `mac_writable_nothing` |
| C95 | the branches of `ModuleInMemory` that read and trap, with the dispositions of SIGSEGV and SIGBUS, the blocked state, `g_BadReadCalled` and whether the frame of `setjmp` is still there (`Page/Trap.lean`); `longjmp` to a dead frame, an endless fault and the end of the process are separate outcomes | induction over the sequence of calls gives exactly what happens; the property holds only for readable memory (and on Linux not the answers), so partial |
| C96 | nothing new: the macro-made hook functions are part of the machine of `SH/Loop.lean` (C06), the generated ones are machine code (C88, C89, C93) | `Jit/AlikeObj.lean`, `Jit32/AlikeObj.lean`: `call_outcome` and `handler_sees` are put in terms of the list of (result code, value) (`chosen`, `shown`); `plain_results`, `class_results`, `objects_live` and the lemmas about the life of objects up to a given handler on the other side. The machine of `SH/Loop.lean` treats values as opaque, so the special functions the macros' C++ code calls are not part of it |
| C97 | nothing new: code and specification of C86 and C87, hook functions of the macros in `SH/Loop.lean` | `Jit32/PrevRun.lean`, `Jit32/PrevProps.lean`, `Jit/PrevProps.lean`: the runs of C86 and C87 again with the variable `prev_res`: by induction over the pass, each call finds the value a list says (32-bit), each call of a hook finds 0 (64-bit, from `prev_never_seen`); `handler_sees` on the side of the macros, put in terms of the same list of handlers (`lastRes_same`). In 32-bit code the called functions are assumed to leave `prev_res` alone (`Leaves`); SourceHook itself writes it only for a recall |
| C98 | `Verif/Page/CurText.lean`, `CurLemmas.lean`, `CurProps.lean`: `fscanf` for the two formats on the bytes of the file, the loops of `GetPageBits` and `ModuleInMemory`, unassigned variables as a distinct outcome; the file as the kernel of FreeBSD writes it (`%p` leaves out the `0x` of a null pointer) is the specification | Induction over the mappings. `ModuleInMemory` is exact. `GetPageBits` finds the mapping but looks at the first flag three times: exact iff the mapping allows neither writing nor executing; a mapping without an object gets the flag of an earlier line, or of an unassigned variable. After `MakePageWritable` the slot is writable and its page is no longer executable. Status partial. |
| C99 | `Verif/Shw/Hopter.lean`, `HopLemmas.lean`, `HopSteps.lean`, `HopProps.lean`: `CString::Replace`, `PrintVarArgs` with all its replacements in their order, the loops of `action_hopter` with `fgets` and the end-of-file mark, and `main` of shworker with a null pointer behind the arguments; files open, writing does not fail, no NUL characters | What a template stands for is a specification over its pieces that knows nothing of replacements. Each replacement is followed through the written template: a text looked for has one `@`, so it can begin only where one of the directives stands (`Apart`, `walk`); the five replacements for a list together fill in every entry (`fill_fill`). Then induction over lines and parts of the file. Findings: other blanks than the ones looked for keep a comma that nothing follows; called without a number the program reads one from a null pointer |
| C100 | `Verif/SH/TakeBack.lean`, `TakeBackLemmas.lean`, `TakeBackProps.lean`: `Load` and `Unload` of a plugin as lists of `AddHook` and `RemoveHook` on the registry of C01; the lines of the three samples, of the bridge for server plugins and of both providers as tables whose names may stand for anything; the early return of the macros for functions that are not virtual is not modelled | Induction over the additions (each list grows at its end by hooks that the matching removal names), over the operations in between (`hook_identity_stable`, `desc_stable`) and over the removals (each filters every list). Findings: the provider for the first Source engine keeps a hook; hooks on a whole class are not removed this way, and neither are hooks whose prototype has an unknown version |
| C101 | `Verif/Build/Version.lean`, `VersionLemmas.lean`, `VersionProps.lean`: the regular expressions with their backtracking, the lines of the generated header, the substitutions of the two packaging scripts (their names on Linux only). Python's `re`, Perl, the shell and git are not modelled beyond that; which characters count as digits is a parameter; line ends are single newlines | Induction over the text for the greedy run and its backtracking; the version read is characterised by an independent description (`Says`), both ways; the text is read back by the same pattern, so it determines the version; the header is read by a small reader of `#define` lines and quoted strings |
| C102 | `Verif/Prov/Engines.lean`, `EnginesProps.lean`: the chains of `#if` as lists of which the first fitting entry counts, with the numbers `SE_…` a parameter (they come from the manifests of the SDKs, which are not in /repo); `engineOf`, which library is built with which SDK, is an assumption of `detected_reported` alone; detection is that of C44, the bridge that of C77 | Induction over the chain for any injective numbering, then the finite table of engines case by case; the finding about `ServerGameClients005` joins the loader's choice with the hooks of the bridge |
| C103 | `Verif/Sample/Sample.lean`, `SampleProps.lean`: the macros as a loop over a list of requests, with `VInterfaceMatch`, `GetVSPInfo` and the texts of the SDK's macros as parameters; the error text by the formatting function of C38; the hook lines are those of C100. Console variables, log lines and the contents of the dialogs other than the items of the menu are left out | Induction over the list of requests; one table decided over the three samples joins the hook lines with the requests; the dialogs by a small checker for use after deletion |
| C104 | `Verif/Loader/Fatal.lean`, `FatalProps.lean`: `mm_LogFatal` with the part of `printf` it uses (`%s`, `%d`), `strftime`, files as lists of bytes that can or cannot be opened; the 17 calls as a table; `mm_LoadMetamodLibrary` as its callers see it, the array for the error being uninitialised. `localtime` is taken to succeed and writing to an opened file too | Induction over the format for when a message can be printed, a table over the calls, induction over sequences of messages; decimal numbers by strong induction |
| C105 | `Verif/Loader/Dedicated.lean`, `DedicatedProps.lean`: memory as a map from slots to code, the two functions, and sequences of requests and calls; the rest of the request is in C43. `SetMemAccess` is taken to succeed, the game's function to leave the loader alone | Refinement of every orderly sequence to a machine that only knows which table waits; the departures by computing the runs for all states |
| C106 | `Verif/SH/Manual.lean`, `ManualProps.lean`: the class a manual hook is declared as and the five macros on it, on top of the registry of C06; the literal of the declaration and the variable `ms_MFI` are kept apart | From the exact effect of removing a manager and of `AddHook`, both proved by invariants over all reachable states; the agreement of slots by arithmetic over all memories |
| C107 | `Verif/Cont/HashAlt.lean`, `HashAltProps.lean`: the two functions that take a key of another type, with `HashAlt`, `CompareAlt` and the conversion as parameters, on the table of C24 | Refinement to finite maps by induction over runs of all operations; the need for the condition on the hash by the invariant of C24 |
| C108 | `Verif/Build/Search.lean`, `SearchProps.lean`: the choice of architectures, `ResolveEnvPath` and `findSdkPath` with `os.path.split` and `os.path.join` of POSIX, and the choice of the generator by core/AMBuilder and by the preprocessor | Induction over lists of targets and over the components of the current directory; the generator outright over all architectures and platforms. `PLATFORM_64BITS` is assumed to be defined exactly for x86_64 |
| C109 | `Verif/Build/Package.lean`, `PackageProps.lean`: the builds of the loader, the names of the core libraries, `deduce_target_sdk` and the folders of PackageScript, the files `metamod*.vdf`, the names the loader is compiled with | Induction over the targets; the search of the SDK by its specification; composed with `libraryPath_spec` (C44) to show that the loader opens the packed file; the names of all backends outright. The directories AMBuild uses are assumed to contain none of the words PackageScript looks for (`Clean`) |
| C110 | `Verif/Build/Plugin.lean`, `PluginProps.lean`: the names of the libraries, `SDKPackage` with `generateVDF` and `addBinary`, the dictionary of packages, with `os.path.splitext` and `os.path.relpath` of Python | Induction over the list of SDKs and targets; round trips for the name of the SDK and for the text of the `.vdf` file, which a small separate reader of keys and values reads |
| C111 | `Verif/Build/PluginVersion.lean`, `PluginVersionProps.lean`: `generateVersionLib` of the sample plugin up to the text of the version: the pattern for `git describe`, the variables, the five replacements, with `str.replace` of Python | Induction over the pieces of a version and over text; refinement: five replacements in sequence against one filling of all places; round trips for the outputs of git |
| C112 | `Verif/Build/Metadata.lean`, `MetadataProps.lean`: `configurePluginMetadata` of the sample plugin with the dictionaries of Python | Induction over dictionaries as lists of pairs with distinct keys; a list without duplicates within another has the same length only if it has the same members |
| C113 | `Verif/Build/GitHead.lean`, `GitHeadProps.lean`: the choice of the file of git on which the version depends, with `strip`, `split` and `os.path.join`, in support/buildbot/Versioning and the sample | Lists of characters; two states of a repository that agree on the watched files have the same commit; fails for a change of the branch in the build of Metamod and for packed branches in both |
| C114 | `Verif/Build/Bootstrap.lean`, `BootstrapProps.lean`: `output_needs_cleaning`, what the script of the build bots does before configure.py, and the environment it passes | All cases of what OUTPUT is and holds; induction over the length of paths in a tree |

Status per property, with theorem names, is in MANIFEST.json.

## Findings

Each row is a theorem that the code does something a reader of its documentation would not expect; most are
concrete executions of the model.  The table is made from the theorems' comments.

| theorem | property | what it shows |
|---------|----------|---------------|
| `Deleg.itanium_two_names` | C85 | With the Itanium ABI this fails: the same member function of the same object, once named through the base class and once converted to the derived class, makes the same call but different handlers; removing the hook by the other name does not find it. |
| `Deleg.static_compare_never` | C85 | Comparing a delegate with a plain function asks for the address of the delegate: the answer is no though it is bound to that function. |
| `Deleg.null_equal_less` | C85 | Null pointers to members can be equal and less: `IsEqual` leaves out the adjustment, `memcmp` does not. |
| `Deleg.null_not_empty` | C85 | A delegate bound to a null pointer to a member of an object is not empty, and calling it is undefined. |
| `SH.thunk_freed_twice` | C18 | C18 fails: the task of a loop that has ended is run again by the next loop started in the same stack slot, so a thunk is given back twice; the second time while the record hooked later may be using it. |
| `SH.shared_pubfunc_loses_record` |  | Finding (C10 without the contract `AddOk`): when two plugins use the same public function (as plugins sharing a generated hook manager do, see C49), the public function remembers only the last registered manager, which does not know the slot hooked by the other plugin: the slot 2008 holds the hook function but the stored manager has no record for it. |
| `SH.unload_removes_others_hooks` | C13 | Finding (C13 fails after an explicit `RemoveHookManager`): plugin 1 removes its hook manager, its hooks stay registered on the slot served by plugin 2; unloading plugin 2 then deletes plugin 1's hooks. |
| `SH.hook_id_reused` |  | an id may be handed out again after its hook was removed, so a stale id can address a different hook (`CHookIDManager::New` takes the first free entry). |
| `SH.recalled_orig_ret_wrong` | C51 | META_RESULT_ORIG_RET in a post handler of a recalled function need not be the superceding value. The first pre handler recalls, the second supercedes with value 6 (the only result above HANDLED): the post handler sees 0, the initial value of `override_ret` in the recalled activation, while the value 6 went to the outermost activation's variable. |
| `SH.shcall_unhooked_bypasses_others` | C11 | SH_CALL of the function in slot 3000, which is not hooked and whose body calls the hooked function in slot 2008. That call finds the "ignore hooks" context meant for the first function and so runs none of its hooks. |
| `Util.keySplit_overruns` | C39 | whenever the key (or the value) has at least as many characters as the size passed, the NUL is written one past the end of the buffer. |
| `Util.keySplit_keeps_quotes` | C39 | the quotes of `"k" "v"` are kept. |
| `Util.findPattern_misses_last` | C41 | `2 9` occurs at the very end of the image `0 1 2 1 2 9` and is not found. |
| `Util.relatize_double_sep_wrong` | C36 | with a doubled separator in the first path (`/r/a//b` to `/r/c`) and the produced text naming some existing file, the result leads to `/c`. |
| `Util.relatize_same_dir_wrong` | C36 | from `/a/` to `/a/` the result is `/` (the empty text is no existing path), which leads to the root. |
| `Util.format_zero_faults` | C38 | Outside C38's range: with size 0 the functions write far outside the buffer. |
| `Util.formatIface_clobbers` | C34 | a name not ending in a digit does not get `001` appended: its last character is overwritten. |
| `Util.formatIface_overruns` | C34 | `V1` in a buffer of exactly its size. |
| `Util.formatIface_empty_faults` | C34 | the empty name writes before the buffer. |
| `Util.search_repeats` | C33 | with the usual `max` of 999, the version 100 is tried a second time after 999. |
| `Util.search_never_ends` | C33 | with a factory that has none of the interfaces, a name that does not end in a digit makes the search run forever (for every number of rounds it is not finished). |
| `Cont.at_end_unchecked` | C23 | the check in `at` accepts the index `size()`; after `resize` this is one past the array. |
| `Cont.push_own_element` | C23 | appending an element of the vector itself, when the array is full, reads the deleted array. |
| `Cont.assign_self_empties` | C23 | assigning a vector to itself empties it. |
| `Page.zero_size_shares` | C25 | A request of size 0 gets the address of a block in use: the two cannot be told apart by `Free`. |
| `Page.map_failed_used` | C25 | MAP_FAILED is not recognised: the region is kept, and the next `Alloc` returns an address near NULL that was never mapped. |
| `Page.empty_request_changes` | C50 | An empty request at an address inside a page changes that page. |
| `Page.makePageWritable_two_pages` | C50 | Not for an address that is not aligned: the bytes in the next page stay read-only, and the result is `true`. |
| `Page.curprocBits_wrong` | C50 | The reader of /proc/curproc/map never sees that a page is writable or executable, if the first of its characters is `r` or `-`. |
| `Page.moduleInMemory_fallback_inverted` | C50 | Without a map file the answer is the wrong way round: readable memory is reported as gone. |
| `Page.failed_push_overruns` | C52 | But it raises the recorded size, so the next push writes past the end of the block. |
| `Page.failed_push_null` | C52 | On a new buffer, the next push writes through NULL. |
| `SH.copyCtor_not_compared` | C49 | The full claim fails: requests that differ in the copy constructor of a parameter get the same code, made for the first of them. |
| `CStr.findLastOf_default` | C47 | Without an index (`npos`) it never finds anything. |
| `CStr.toLower_nothing` | C47 | `toLower` leaves every text as it is. |
| `CStr.toLower_wrong` | C47 | "ABC".toLower() is "ABC". |
| `CStr.erase_removes_too_much` | C47 | "abcdef".erase(3, 1) is "abc". |
| `CStr.erase_past_end` | C47 | "ab".erase(3, 1), past the end, is "a". |
| `CStr.erase_overruns` | C47 | "ab".erase(10, 5) writes outside the array. |
| `CStr.substr_wraps` | C47 | "abcdef".substr(3, npos - 1) is empty. |
| `CStr.substr_overruns` | C47 | "abcdef".substr(3, npos - 2) writes outside an array of no bytes. |
| `CStr.appendOwn_undefined` | C47 | Appending a string to itself is undefined, unless it never had an array. |
| `Mgr.retry_same_ids` | C26 | C26 is false: `Retry` gives its second id back (core/metamod_plugins.cpp:316,328), but a plugin loaded from inside the retried plugin's `Load` has the next id already, and the load after that gets the same one. |
| `Mgr.retry_id_reused` | C26 | C26 is false: after a successful `Retry` the plugin's hooks are owned by the id that it was told in `Load`, not by the id it has from then on, and the next plugin loaded gets that id. |
| `Mgr.retry_hooks_lost` | C26 | When that plugin is unloaded, the first one's hooks go too. |
| `Mgr.retry_hooks_stay` | C26 | And when the first one is unloaded its hooks stay, with its code gone. |
| `Mgr.retry_nested_dangling` | C26 | A plugin that retries itself in its `Load` during a `Retry` leaves the outer one with an iterator to a freed list node. |
| `Mgr.load_self_uninit` | C27 | A plugin that loads its own file from its `Load` makes the manager read its status, which is not written yet (core/metamod_plugins.cpp:163 reads what 149-152 does not write). |
| `Mgr.load_failed_says_already` | C27 | `Load` of a file that failed before says `already` though it is loaded anew (core/metamod_plugins.cpp:161-166). |
| `Mgr.late_hook_active` | C28 | C28 is false for hooks added while the plugin is paused: they are called. |
| `Mgr.retry_pause_misses` | C28 | C28 is false after a successful `Retry`: pausing the plugin does not pause its hooks, as they are owned by another id (core/metamod_plugins.cpp:312-313). |
| `Mgr.failed_load_announced` | C29 | `Load` of a plugin that refuses announces `OnPluginLoad` all the same (core/metamod_plugins.cpp:180-187). |
| `Mgr.retry_not_announced` | C29 | A successful `Retry` announces nothing (core/metamod_plugins.cpp:301-319). |
| `Mgr.unloadAll_not_announced` | C29 | `UnloadAll` announces nothing (core/metamod_plugins.cpp:716-732). |
| `Mgr.event_unload_dangling` | C29 | A listener that unloads its own plugin from the event leaves the loop with a freed object. |
| `Mgr.told_twice` | C30 | A plugin loaded by another one in its `AllPluginsLoaded` is told twice: after its load and by the running loop. |
| `Mgr.paused_never_told` | C30 | A plugin that is paused during the announcement is never told, not even when it is unpaused. |
| `Mgr.unknown_api_leaks` | C53 | What a plugin registers with an unknown interface object is registered with the engine and never unregistered. |
| `Mgr.unlink_unreg_dangling` | C53 | A listener that unregisters the next variable when one of its plugin's is unlinked leaves the loop of `UnregAllConCmds` with a freed node. |
| `Mgr.unreg_in_load_uninit` | C53 | `UnregisterConVar` during the `Load` of any plugin reads its status, which is not yet written. |
| `Mgr.unknown_listener_null` | C53 | `AddListener` with an unknown interface object is a NULL dereference. |
| `Mgr.unloadAll_never_ends` | C55 | C55 is false if a plugin loads another one while it is unloaded: whatever the number of steps, `UnloadAll` has not come to an end. |
| `Loader.s2_server_first` | C43 | C43 fails for the second engine: its server interface requested before the configuration is a call of a NULL factory (loader/gamedll.cpp:825). |
| `Loader.unload_twice_unmapped` | C43 | `Unload` keeps the pointer to a bridge whose library it closes (loader/serverplugin.cpp:204-214); a second one calls into it. |
| `Loader.unload_blocks_reload` | C43 | So after an unload the callbacks are never handed out again. |
| `Loader.shutdown_then_unload_unmapped` | C43 | The same when the game shuts down first: the server plugin's bridge lives in the core that is closed with the game (loader/gamedll.cpp:571-601). |
| `Loader.second_request_closed` | C43 | `mm_FreeCachedLibraries` closes libraries and keeps their handles (loader/gamedll.cpp:222-230): a second request for the game looks into a closed library. |
| `Loader.failed_init_null` | C45 | C45 fails if the original fails while no core is active: `gamedll_bridge->Unload()` on NULL (loader/gamedll.cpp:551-555). |
| `Loader.requested_twice_recurses` | C45 | C45 fails if the game's interface is requested twice before it is initialised: both requests succeed, the remembered original is then the loader's own function, and the engine's call never ends, whatever the depth of the stack (release builds; the `assert` in loader/gamedll.cpp:643 is compiled out). |
| `Loader.s2_null_answer` | C45 | The second engine's server object is patched even if the game answered NULL for it: its table is read through NULL (loader/gamedll.cpp:823-834, 623-625). |
| `Loader.nested_init_dangling` | C43 | With external code that calls the loader meanwhile this fails: a core without a bridge is closed, but by then `mm_library` may be the core of another initialization (loader/gamedll.cpp:389-394). |
| `Loader.second_detect_true` | C62 | the first call that finds no path answers false, every later one true, still without a path. |
| `GInfo.quoted_ignored` | C62 | a line that starts with a quote names nothing and does not open the section, although the engine's reader takes `"Game" "x"` and `"SearchPaths"` like the words without quotes. |
| `GInfo.section_never_ends` | C62 | no line ends the section; whatever follows the line "SearchPaths", a later "Game" line counts. |
| `GInfo.long_line_taken` | C62 | a line longer than 254 bytes is read as several lines: the loop goes on with what follows the first 254 bytes as if it were a line of its own. |
| `Core.query_unload_dangling` | C32 | A listener that unloads its plugin and has no answer: the loop goes on with the freed node. |
| `Core.late_never_told` | C48 | C48 fails as documented in core/ISmmAPI.h:307-313 ("each successive call will only give the pointer to plugins which have not yet received it"): a listener that is not there at the notification is never told by enabling. |
| `Core.enable_nested_twice` | C48 | C48 needs a server command that does not enable the listener before it returns: `vsp_load_requested` is written after the command (core/metamod.cpp:803-808). |
| `Core.nested_load_twice` | C56 | C56 needs that condition on the first load: `were_plugins_loaded` is written after it (core/metamod.cpp:146-151), so a plugin whose loading ends a level has the plugins loaded a second time, within the first. |
| `PFile.long_line_split` | C46 | of a line longer than 254 bytes the first 254 are a line of their own, and the rest is another (core/metamod.cpp:264-267). |
| `PFile.alias_absolute_ignored` | C46 | on a line `alias path` whose path does not start with a letter, e.g. an absolute one, no alias is set and the alias is loaded as the path (core/metamod.cpp:313-317). |
| `PFile.failed_counted_skipped` | C46 | a file whose plugin failed before and is loaded now counts as skipped (`already` of core/metamod_plugins.cpp:161-166). |
| `PFile.absolute_is_format` | C57 | an absolute path is used as the format: with a `%` in it the outcome is not defined (core/metamod.cpp:1144). |
| `PFile.empty_name_overreads` | C57 | for the empty name the byte behind the terminator is read (core/metamod.cpp:1142). |
| `PFile.empty_by_junk` | C58 | for a file that names the empty string, whether the path is empty or below the game directory depends on bytes that were never written (core/metamod.cpp:1142, 1202). |
| `PFile.vdf_empty_depends` | C58 | the empty name leads to two different plugins, by what happens to be in the array `file`. |
| `PFile.vdf_failed_skipped` | C58 | a plugin that failed before and fails again counts as already loaded, for it is in neither state (core/metamod.cpp:1297-1298). |
| `PFile.vdf_long_cut` | C58 | a file of the game directory that the list of plugins can name cannot be named by a .vdf file, for the name is cut to 254 bytes (core/metamod.cpp:1202). |
| `PFile.unload_digits` | C59 | a name that starts with digits is taken for a number: `meta unload 2nd` unloads the plugin with the number 2. |
| `PFile.unload_not_letter` | C59 | nothing can be unloaded under a name that starts with anything but a letter or a digit, such as an absolute path. |
| `PFile.unload_other_spelling` | C59 | a plugin loaded as "a/b.so" is "already loaded" as "a//b.so", but is not found to be unloaded under that name; loaded by an absolute path it cannot be unloaded by it; "1.so" unloads the first plugin. |
| `PFile.load_frees_while_busy` | C59 | `meta load` while a hook loop runs frees the plugins that wait for its end. |
| `Report.status_text_inverted` | C60 | `GetStatusText` says "STOPPED" of a plugin that runs, "RUNNING" of one that does not. |
| `Report.log_long` | C61 | a message of 2046 bytes or more loses its newline. |
| `Report.log_nested` | C61 | the guard against messages while one is told does not work. Of the outer message the console hears nothing: it is told the inner one twice. |
| `Report.log_error_stale` | C61 | when vsnprintf fails, what the buffer held before is told. |
| `Jit.movImm_negative_wrong` | C63 | `mov(reg, int32)` with a negative number does not leave that number in the 64-bit register: `mov(rax, -1)` leaves 4294967295 (no REX.W, so the processor zero-extends), whereas the overload that stores to memory extends the sign. |
| `Jit.prev_never_seen` | C65 | first departure: whatever the hook before did, a hook finds `prev_res` to be `MRES_IGNORED`: the assignment comes before the call. |
| `Jit.prev_run` | C65 | The `prev_res` the calls of the two hooks find, as the code has it and as the C function. |
| `Jit.result_lost` | C65 | second departure: with a returned object that has a destructor, RAX and XMM0 end as the last destructor left them, whatever was to be returned. |
| `Jit.result_lost_run` | C65 | the second departure on the machine: the convention wants the address `0x7000` of the returned object in RAX; the caller finds what the destructor left there. |
| `Jit.object_in_register_lost` | C65 | third departure: an object the hook or the original returns in a register is not stored in its variable; the function returns what the variable held before. |
| `Jit.object_always_memory` | C65 C66 | Objects returned by value are always taken to be returned in memory, unless the plugin says otherwise: in line 1268 `&` binds tighter than `\|`, so the test is always true. |
| `Jit.vafmt_dropped` | C66 | a departure: a function with a format and variable arguments is taken, but its hooks are called with the fixed parameters only; the 32-bit generator adds the formatted text (core/sourcehook/sourcehook_hookmangen_x86.cpp:984-992), which is a parameter of such a hook. |
| `SH.proto_eq_not_transitive` |  | The unknown convention is a wildcard, hence the comparison is *not* transitive: a thiscall prototype equals an unknown one, which equals a cdecl one, but those two differ. |
| `SH.Mfp.msvc_jump_back_unmapped` | C67 | Finding, core/sourcehook/sh_memfuncinfo.h:95: a pointer to a virtual function whose jump goes backwards makes `GetFuncInfo` read memory 4 GiB above the code, which need not be mapped. Here virtual function 3 at address 4096 is reached by a jump at address 8192. |
| `SH.Mfp.msvc4_counts_twice` | C67 | Finding, core/sourcehook/sh_memfuncinfo.h:280-281: for a class of unknown inheritance without virtual bases the offset of the base class is reported both as this pointer offset and as table offset, so `AddHook` reads the table at twice the offset. |
| `Prov.cache_far` | C69 | Finding, core/provider/source/provider_source.cpp:545: on a 64-bit machine the distance is cut to 32 bits; if the detour is further away, a server that ends its list by calling `Error` makes the process go on at an address nobody chose. |
| `Prov.Cmd.register_again_cuts` | C70 | Finding, core/provider/source/provider_source_console.cpp:40, 50: registering a command that is in the list clears its link before the engine, which has it marked, refuses it: all commands behind it are lost. |
| `Prov.Cmd.init_without_symbol` | C70 | Finding, core/provider/source/provider_source_console.cpp:117-122: if the library opens but has no such symbol, the function reports success without an address, and the signature is not tried even if it would match. |
| `Prov.S2.paths_all_lost` | C71 | Finding, core/provider/source2/provider_source2.cpp:122-133: if the server itself is installed below a directory with "metamod" in its name, all its search paths of the thirteen kinds are taken out, and the write path becomes the empty name. |
| `Prov.S2.no_filesystem_faults` | C71 | Finding, core/provider/source2/provider_source2.cpp:84-87, 118: without a file system the start says that .vdf files will not be read, and then calls the file system through NULL. |
| `Prov.S2.no_services_faults` | C71 | Finding, core/provider/source2/provider_source2.cpp:148: the engine's service manager is hooked without a test for NULL. |
| `Prov.S2.create_null_faults` | C71 | Finding, core/provider/source2/provider_source2.cpp:417-419: a factory that answers NULL makes the provider hook NULL. |
| `Prov.S2.override_not_followed` | C71 | Finding, core/provider/source2/provider_source2.cpp:417: if a plugin overrides the result of `CreateLoopMode`, the hooks go to the object the engine does not get: Metamod is not told of its levels. |
| `Prov.S2.late_destroy_stays` | C71 | Finding, core/provider/source2/provider_source2.cpp:404-413: a loop mode destroyed after its factory was unregistered keeps its hooks; an object created later at its address is taken for it. |
| `SH.Pi.seventh_stale` | C72 | Finding, core/sourcehook/sourcehook_pibuilder.h:94-104: the pointer of a builder with six parameters dangles once a seventh is added. |
| `Jit32.callRm_jumps` | C73 | **Finding.** `IA32_Call_Rm` writes a jump, not a call. |
| `Jit32.imulImm_eax` | C73 | **Finding.** `IA32_IMul_Reg_Imm8` and `IA32_IMul_Reg_Imm32` put the product into EAX, whatever register they are given. |
| `Jit32.fstpAuto_swallows` | C73 | **Finding.** `IA32_Fstp_Mem32_DispAuto` and `IA32_Fstp_Mem64_DispAuto` announce a displacement of four bytes outside -127 .. 126 but write one: the processor takes the first three bytes of the next instruction for the rest of the displacement. |
| `Jit32.auto_truncates` | C73 | **Finding.** `IA32_Mov_Reg_Rm_DispAuto`, `IA32_Fld_Mem32_DispAuto` and `IA32_Fld_Mem64_DispAuto` test the displacement only from above: below -128 they keep its lowest byte and access another address. |
| `Jit32.auto_ebp_absolute` | C73 | **Finding.** The same functions with base EBP and displacement 0 access an absolute address made of the next four bytes of the code. |
| `Jit32.esp_base` | C73 | **Finding.** With ESP as base register the functions without index write no SIB byte: the processor takes the displacement for it and the next byte of the code for the displacement. |
| `Jit32.movzx16_prefixed` | C73 | **Finding.** The operand size prefix that core/sourcehook/sourcehook_hookmangen_x86.cpp:311-313 puts in front of `IA32_Movzx_Reg32_Rm16` turns it into a move of two bytes: the upper half of the register is kept, not zeroed. |
| `Jit32.totalSize_wraps` | C75 | a departure: 32 KB of parameters give a negative size, and the generator accepts them. With such a size the address of the variable arguments and the alignment are wrong. |
| `Jit32.odd_size_not_pushed` | C75 | a departure: a number by value whose size is not 1, 2, 4 or 8 (or a floating point number whose size is not 4 or 8, such as `long double`) is accepted as a parameter and takes room on the stack of the hook function, but is not pushed for the hooks and the original function: they find other values in its place. |
| `Jit32.large_in_registers` | C75 | a departure: an object of more than 8 bytes that the plugin says is returned in registers is accepted, but no instruction keeps the value a hook or the original function returns, and none sets the value returned to the caller (the only check is an assertion, 672). |
| `Jit32.varArgs_as_vafmt` | C75 | a departure: a function with plain variable arguments (`CallConv_HasVarArgs`) is treated like one with a format string, because the test for the latter is whether any of its two bits is set. |
| `Jit32.vafmt_without_list` | C75 | a departure: with the second bit alone the prototype is accepted, and the list of arguments given to `vsnprintf` is whatever EAX held when the hook function was called: nothing before sets EAX. |
| `Jit32.copied_object_in_place` | C75 | a departure: an object with a copy constructor but no destructor is not recognised as one GCC passes by reference; it is pushed in place. |
| `Jit32.destructor_result_returned` | C76 | a departure: the destructors of parameters passed by value run between the call and the place where its result is kept (core/sourcehook/sourcehook_hookmangen_x86.cpp:1014-1016, 1165-1168), and they may change EAX. `int f(Object)` is hooked, there is no hook function at the moment, the original function returns 77: the caller gets 0x1234, what the destructor left in EAX. |
| `Jit32.pointer_copied_for_object` | C76 | a departure: an object with a destructor that is passed by value arrives as a pointer (`PassFlag_ForcedByRef`); the copy that is passed on is made of the pointer, not of the object (core/sourcehook/sourcehook_hookmangen_x86.cpp:394, 426). The caller passes an object with the contents 0xAB at 0x5000: the original function gets an object with the contents 0x5000. |
| `Jit32.copy_of_pointer_unaligned` | C76 | a departure: with a copy constructor, that is called for the address of the pointer instead of the address of the object; and the stack is not aligned to 16 bytes at the call (the comment in core/sourcehook/sourcehook_hookmangen_x86.cpp:379-381 leaves that open). |
| `Core.Br.nested_unload_allowed` | C77 | If `plugin_unload` is run again while it runs, the end of the inner run ends the refusal: an `Unload` after it, still inside the outer one, unloads Metamod. |
| `Core.Br.changed_command_keeps_hooks` | C77 | If the engine has another command, or none, at the second `Load`, the hooks on the first one stay after `Unload`, also when the library goes. |
| `Core.Br.shutdown_in_unload_keeps_refusal` | C77 | If the game shuts down while `plugin_unload` runs, the hook that ends the refusal is gone: it never ends. |
| `Core.Br.failed_load_describes` | C77 | A `Load` that fails has changed the description: it grows with every attempt. |
| `Core.Br.clients_search_loses` | C77 | The search for `IServerGameClients` in `VspBridge::Load` stops at the first version the game does not have, not at the first it has: with version 3 alone it ends with NULL. (The provider searches again.) |
| `Core.Br.failed_load_renames` | C77 | A second `Load` that fails changes the name of the game's interface, though not its version. |
| `Core.Br.missing_engine_faults` | C77 | Without the engine's interface `Load` reports an error and then uses the pointer all the same. |
| `Core.Src.command_line_once` | C78 | Finding, core/metamod.cpp:180-189, 472-490: a list named on the command line is read the first time only; at the end of each level the one of the variable is read, so that plugins of another list are loaded. |
| `Core.Src.empty_variable_faults` | C78 | Finding, core/metamod.cpp:180-189, core/provider/source2/provider_source2.cpp:283: in Source 2 an empty variable is NULL, and at the end of a level it is printed with `%s`; the first time the default is taken instead. |
| `Core.Src.default_lost` | C78 | Finding, core/provider/source/provider_source.cpp:351-361: without `icvar` a value asked for with a default is NULL, not the default. |
| `Core.Src.command_cut` | C78 | C78 (what long paths come to): the command is cut at 8191 bytes, without quote and end of line. |
| `Core.Src.no_realpath_faults` | C78 | Finding, core/metamod.cpp:371-381: if the engine's directory cannot be resolved, the text is made empty so that the full path to Metamod is used; but `UTIL_Relatize` then reads the first part of a path that has none (core/metamod_util.cpp:413). |
| `Core.Src.no_engine_file_faults` | C78 | Finding, core/metamod.cpp:357-360: if the engine's file is not found, its name is read from an array that was never written. |
| `Core.Src.quote_ends_argument` | C78 | Finding, core/metamod.cpp:384: a quote in the path is not escaped; the argument ends there. |
| `Cmds.info_reads_unwritten` | C79 | a plugin that answers that it does not run, and writes nothing, makes `meta info` print an array that nobody wrote. |
| `Cmds.info_null_faults` | C79 | a plugin that gives no description (NULL) faults `meta info`, though `meta list` allows for strings that are NULL. |
| `Cmds.query_self_unwritten` | C79 | a plugin that asks for its own status while it is being loaded, with the number that it was just given, is given a status that was never written. |
| `Cmds.query_no_room` | C79 | with an array of no bytes for the answer, the byte before it is written. |
| `Maps.module_two_mappings` |  | Two mappings side by side, both readable, are not taken as one: of a range over both the answer is that it is gone. |
| `Maps.module_unreadable` |  | A mapping nobody may read counts as memory: `ModuleInMemory` does not look at the flags. |
| `Maps.module_around` |  | A range around the end of memory is reported as present as soon as the first mapping of the file begins below its start and ends above its end, which it need not touch. |
| `Maps.cut_line_reads_past` |  | The parser takes every line for one of the kernel's: behind a last line that is only a number it reads past the end of the text. |
| `Loader.second_load_shifts` | C81 | A Load that fails after the engine was found is tried again when the engine asks again, and adapts the table a second time (loader/serverplugin.cpp:103-159): then the engine calls `ClientPutInServer` for a client that leaves, `ClientCommand` for one that connects, and a function without a result for `NetworkIDValidated`. |
| `Gen.forced_incompatible` | C82 | finding: two hook managers for one and the same function — the one made by the generator and one made from the request itself — do not count as compatible if the function takes an object with a destructor by value (32 bits, GCC). |
| `Gen.released64_leaks` | C82 | finding: 64 bits: when the last user of a generated hook manager releases it, the two arrays of its prototype stay allocated, whatever happens afterwards, the destruction of the table included (the destructor does not call `Clear`). |
| `Prov.Con.base_source2` | C83 | Finding, core/provider/source2/provider_source2.cpp:291-295, core/metamod.cpp:922-925: on Source 2 a command handed in as `ConCommandBase` goes on the list of variables. |
| `Prov.Con.register_reveals` | C83 | Finding, core/provider/source2/provider_source2.cpp:304-305: a command that its author made development-only is shown to everyone by registering it. |
| `Prov.Con.unlink_register_stays` | C83 | Finding, core/metamod_plugins.cpp:852-866: a listener that registers a variable for the plugin when one of its commands is unlinked comes too late, the plugin's variables have been gone through; the plugin goes and its variable stays. |
| `Prov.Con.shutdown_twice` | C83 | Finding, core/provider/source2/provider_source2.cpp:152-155: the list is not cleared, so a second shutdown deletes the variables again. |
| `Shw.documented_separator` |  | Documented (shworker.cpp:15): `@[variable,min,max:code\|separator@]`. The separator is looked for before the colon only: written as documented, it is part of the code. |
| `Shw.top_condition` |  | A condition on an additional argument outside of all iterations is a syntax error: the variables are not put in there. |
| `Shw.neq_with_eq` |  | `==` is looked for in the whole section before `!=` is: a `!=` whose text contains `==` reads outside the section, one way or the other. |
| `Shw.inner_error_lost` |  | Errors inside of an iteration or a condition are not reported: the output lacks text and the program returns 0. |
| `Shw.taken_variable` |  | An iteration over a variable that is taken is never recognised as such: the number is put in first, and what is left is no directive. Inside an iteration this shows as missing text only. |
| `Shw.eleven_arguments` |  | With more than ten additional arguments, `replace_vars` reads outside `converted_argv`, in spite of the warning. |
| `Shw.negative_rejected` |  | A negative number can come about but cannot be read: the text it is put in as is no expression. |
| `Shw.max_overflows` |  | An iteration up to the greatest number counts beyond it. |
| `Shw.trailing_ignored` |  | What follows an expression is not looked at: here the condition compares 1 with 1. |
| `Shw.top_text` |  | Outside of all iterations, `$a` in the text is left alone; inside it is replaced. |
| `SH.vp_replaced_dangling` | C16 | C16 fails: the handler of the only vtable-wide hook of a function removes its hook and adds it again. `HookRemoved` moves the iterator to the end of the list, `IfaceRemoved` does not look at the iterator (core/sourcehook/sourcehook.cpp:864-877), the list is deleted, and `GetNext` finds the new list and increments the iterator of the deleted one (sourcehook.cpp:761-770). |
| `SH.vp_post_replaced_dangling` | C16 | C16 fails in the post loop in the same way, core/sourcehook/sourcehook.cpp:807-829. |
| `SH.manager_removed_dangling` | C16 | C16 fails: a handler calls `RemoveHookManager` for the only manager of the function it is called from. The function's record is deleted without `VfnPtrRemoved` (core/sourcehook/sourcehook.cpp:399-421), and the next `GetNext` of the running loop uses it. |
| `SH.unload_in_call_dangling` | C16 | C16 fails: `UnloadPlugin` from inside a call (the unload that bug 5034 is about, sourcehook.cpp:384-388) deletes the record of the function being run, because the manager it removes is the last one although a hook of another plugin is left (sourcehook.cpp:376-382, 399-421). |
| `SH.replaced_recall_dangling` | C12 C16 | C12 and C16 fail: the handler of the only hook of an object replaces its hook and then recalls the function. `DoRecall` copies the iterator of the deleted list (core/sourcehook/sourcehook.cpp:462-490), `SetupHookLoop` finds the new list (sourcehook.cpp:585-594), and `GetNext` increments the iterator. |
| `SH.recall_unhooked_leaks` | C14 C15 | C15 fails: a handler removes the last hook of its function and then recalls it. `DoRecall` pushes a context for the recalled call (core/sourcehook/sourcehook.cpp:462-490), but the slot was restored, so the function itself runs and nobody pops the context: the handler's call returns and the stack is not empty. A plugin whose unload is requested afterwards is not released, not even when later calls end (sourcehook.cpp:384-396, 630-641). |
| `Jit32.Class.unconstructed_assigned` | C88 | a departure: a class with a destructor and an assignment operator but without a default constructor is accepted, and nothing constructs the three variables (core/sourcehook/sourcehook_hookmangen_x86.cpp:1543-1545): the object the original function returned is assigned to memory that is no object, and three objects are destroyed that never were. Calls 4, 5 and 9 to 12: the assignment to 0xFFDC from the temporary place 0xFFB8, the destructor of that; the copy constructor, the destructors of 0xFFC4, 0xFFD0 and 0xFFDC. |
| `Jit.Rule.parameter_destroyed_again` | C89 | a departure: an object with a destructor that is passed by value is destroyed more than once. Among the calls of the hook function (`hook_rule`), in this order: every hook and the original function, where it is called, with the address of the same object as parameter `i`, and at the end the object's destructor. Each of the functions owns its parameters and destroys them; so the destructor runs once for each of them and once more, and all but the first find an object that is gone. |
| `Cont.list_self_emptied` | C90 | C90: assigning a list to itself empties it. |
| `Cont.hash_self_emptied` | C90 | C90: assigning a hash table to itself empties it. |
| `Cont.stack_self_broken` | C90 | C90: after a stack was assigned to itself its sectors are gone but its size is not: reading any of its elements is an access outside the sector table. |
| `Cont.stack_copy_reads_unset` | C90 | C90: copying a stack whose element type has no default constructor reads elements that were never assigned, unless the sectors happen to be full. |
| `CStr.string_self_overlaps` | C90 | C90: assigning a string that has an array to itself calls `strcpy` with the same array as source and target, which is undefined (the array is large enough, so `Grow` leaves it). |
| `Cont.hash_copy_overcounts` | C90 | C90: the copy constructor starts from the other table's `m_percentUsed` and then counts every bucket it fills again: unless the table grows meanwhile, the copy takes itself for as full as the two tables together. |
| `KvFile.kv_short_read` | C92 | **Finding (C92).** The number of bytes read is not looked at: when `Read` delivers less than `Size` said (a file cut off in between, an error of the disk), the parser is given bytes of the scratch memory that nobody wrote. |
| `KvFile.kv_negative_size` | C92 | **Finding (C92).** A negative `Size` (the answer -1 for a file that cannot be measured, or a file of 2 GB and more) is not looked at either: the NUL is written in front of the buffer. |
| `Page.win_widened` | C94 | a page that allows nothing, or executing only, is made readable, writable and executable. |
| `Page.win_modifier_lost` | C94 | a page with a modifier (`PAGE_GUARD`, `PAGE_NOCACHE`, `PAGE_WRITECOMBINE`) loses it and is made readable, writable and executable, whatever it allowed. |
| `Page.mac_unmapped` | C94 | for an address in no region, `GetPageBits` on macOS tells what the next region above allows. |
| `Page.mac_writable_nothing` | C94 | so `MakePageWritable` on macOS says yes to an address where nothing is mapped, below a writable region; the write that follows (`CVfnPtr::Patch`) faults. |
| `Page.linux_trap_exact` | C95 | exactly what happens on Linux for any calls: the second call about memory that cannot be read ends the process. Until then every answer is the opposite of the right one; after the first such call `BadReadHandler` stays in place of the handler of the process, and the signal stays blocked. |
| `Page.linux_later_fault` | C95 | on Linux, after `ModuleInMemory` was asked once about memory that cannot be read, a fault anywhere else in the process no longer reaches the handler of the process: it ends the process at once. |
| `Page.mac_later_fault` | C95 | on macOS, after `ModuleInMemory` was asked about memory that cannot be read, a later fault anywhere else in the process does not reach the handler of the process: if that was the last call, `longjmp` goes to a function that has returned (undefined behaviour); else the handler returns to the faulting instruction forever. |
| `Alike.prev_agrees64_iff` | C97 | : a handler of a call through a hook function of the macros reads with META_RESULT_PREVIOUS the answer of the handler before it; so it reads what the hook of a generated 64-bit function finds (`MRES_IGNORED`, says `prev_rule`) only where that answer was `MRES_IGNORED` or there was none. |
| `CurMap.bits_exact_iff` | C98 | C98, a departure: on FreeBSD `GetPageBits` tells what the mapping allows only where it allows neither writing nor executing. |
| `CurMap.bits_stale` | C98 | C98, a departure: of an address in a mapping without an object, in whose line the third `0x` is missing, `GetPageBits` tells the flag for reading of the last line before it that has an object, whatever the mapping allows; if there is none, it looks at a variable that nobody has assigned. |
| `CurMap.slot_page_partial` | C98 | C98, a departure: `MakePageWritable` of a slot in a mapping with an object succeeds and the slot is writable, but nothing on its page may be executed any more. It takes every mapping for one that allows at most reading. |
| `CurMap.other_text_ub` | C98 | C98, a departure: if the file does not begin with a line of the form expected, `GetPageBits` and `ModuleInMemory` go on with bounds nobody has assigned: that `fscanf` has assigned nothing is not the same as its having found the end of the file. |
| `Hopter.other_blanks_stay` | C99 | only `,` and `, ` in front of a directive, and `,` behind it, go away with it: in front of `@FUNCARGS` and `@INVOKEARGS` any other text stays as it is, whatever the number of parameters. So a comma with two blanks or the end of a line behind it stays where no entry follows. |
| `Hopter.no_number_ub` | C99 | the program reads a number from a null pointer exactly if it is called with `hopter`, in letters of either case, and the names of two files alone, which it takes for enough. |
| `SH.TakeBack.source_leaves_command_hook` | C100 | the provider for the first Source engine does not take back its hook on the commands of players: after `Notify_DLLInit_Pre` and `Notify_DLLShutdown_Pre` it is still registered, in every state. It goes only when SourceHook itself is shut down. |
| `SH.TakeBack.class_hook_not_taken_back` | C100 | a hook added for all objects of a class (`SH_ADD_VPHOOK`, `SH_ADD_DVPHOOK`) stays through every `RemoveHook` that names an object, whatever its other arguments: it is kept under the address 0. Only its id removes it. |
| `SH.TakeBack.unread_prototype_not_taken_back` | C100 | `AddHook` accepts a hook manager whose prototype SourceHook cannot read (version above the known ones), but the hook is then never removed by `RemoveHook`, because such a prototype is not even equal to itself. |
| `Build.package_of_other_release` | C101 | with another tag that begins with `dev` the package can be named after another release: `2.0.0-dev2` and `2.0.02` give the same package, and the two scripts that make packages disagree. |
| `Build.plus_tag_collides` | C101 | a tag with a plus sign can pass for a number of commits: the release tagged `dev+5` and the fifth `dev` build report the same version. |
| `Build.quote_cuts_tag` | C101 | a quote in the tag ends the string in the header early: the tag compiled in is not the tag of the file. |
| `Prov.Eng.shared_number_misreported` | C102 | if two SDKs used the same number, the build for one of them would report the other: the first in the chain. |
| `Prov.Eng.newer_clients_not_hooked` | C102 | the loader chooses the build for Half-Life 2 Deathmatch for games it knows only by `ServerGameClients005`, but the provider asks for `ServerGameClients003` and `004` alone: for a game that offers only 005, whatever it answers there, no hook on the commands of players is set, so `meta` typed by a player is not seen. |
| `Sample.name_change_reversed` | C103 | the sample tells players "Your name changed to …" only when it did not change (the comparison with the known name is `== 0`, samples/s1_sample_mm/sample_mm.cpp:240): a change is never reported, and any other setting a person changes brings the message with the same name twice. |
| `Jit32.signalling_nan_altered` | C76 | a signalling NaN does not arrive as it was given: the code for 32 bits carries floating point parameters through the floating point stack, and what handlers and original see differs from the caller's value in one bit. |
| `Cont.insert_own_behind` | C23 | inserting an element that lies behind the place inserts the one before it, as the entries are moved before the reference is read. |
| `Cont.insert_own_full` | C23 | inserting an element of the vector itself, when the array is full, reads the deleted array. |
| `Cont.pop_empty_wraps` | C23 | `pop_back` on an empty vector makes its size the largest number there is: the guard `m_CurrentUsedSize < 0` cannot be met, the type being unsigned. The array stays as it was, so the size exceeds it, and `at` lets every index pass. |
| `Fatal.error_unwritten` | C104 | if the loader cannot find its own path, or that has no slash, `mm_LoadMetamodLibrary` returns false without writing to `buffer`, and its callers print their array `error`, which nobody has written to (loader/gamedll.cpp:376-379, 471-480, loader/serverplugin.cpp:165-170). |
| `Dedi.requested_twice_null` | C105 | if `Source2ServerConfig` is requested twice before `AllowDedicatedServers` is called, the loader saves its own function as the original (loader/gamedll.cpp:715): the first two calls are answered with true, the second of them writes NULL into the table, and the third call is a call of NULL. The game's function is lost. |
| `Dedi.other_object_null` | C105 | if the second request yields an object with another table, the call through the first one puts back the slot of the second, unasked, so that the call through this one is answered by the game; one more call through the first, which keeps the loader's function for good, writes NULL into the second, and calling it is a call of NULL (loader/gamedll.cpp:706, 721). |
| `SH.Manual.this_offset_ignored` | C106 | the `this` offset given to `SH_MANUALHOOK_RECONFIGURE` has no effect on adding and removing hooks: the macros use the literal of the declaration (core/sourcehook/sourcehook.h:903, 910). Hooks go to the table the declaration names, while `SH_MCALL` looks at the new one. |
| `SH.Manual.mcall_this_unadjusted` | C106 | `SH_MCALL` calls the function from the table at `ptr + thisptroffs`, but with `ptr` itself as `this` (core/sourcehook/sourcehook.h:922, 927): it is the object the function belongs to, and the one hooks are added for, only if the offset is 0. |
| `SH.Manual.reconfigure_leaves` | C106 | where another plugin hooks the same function, reconfiguring leaves the hooks on the old function in place, and if index or table offset changed, no `SH_REMOVE_MANUALHOOK` of this hook removes them any more. |
| `Search.unknown_arch_name_error` | C108 | the exception for a target of another architecture is never raised: its message names the variable `arch`, which `configure` does not have, so that the script stops with a `NameError` instead (AMBuildScript:104; the loop variable is `cxx`). |
| `Search.variable_hides` | C108 | a variable that names no directory hides an SDK that is beside the sources: nothing is searched any more, and the SDK counts as missing (AMBuildScript:5-8 has no way on to the search). |
| `Package.mac_undefined` | C109 | on macOS the loader cannot be compiled: `SERVER_NAME_S1` and `SERVER_NAME_S2`, used at loader/gamedll.cpp:170, are not defined, though loader/AMBuilder builds it. |
| `Package.vdf_dangling` | C109 | `metamod.vdf` is packed even if no 32-bit target is built; then it names a library that is not in the package. |
| `Package.deduced_wrong` | C109 | an SDK can be taken for another whose name is a part of its own: the library for Left 4 Dead 2 counts as that for Left 4 Dead, if that comes first, wherever it is built. |
| `Plugin.two_targets_collide` | C110 | if an SDK is built for two targets of one platform, both libraries of the plugin are copied to the same path: that of the target that comes last. |
| `PluginVersion.no_repository` | C111 | outside a repository a version with the place for the tag, or that for the commits after it, is an error, as the variables are not set, though the other places become 0. |
| `PluginVersion.tag_misread` | C111 | a commit that has a tag of the form `git describe` prints is taken for one after another tag: for every such tag. |
| `PluginVersion.filled_twice` | C111 | a value with a place in it is filled again: the places are not replaced at once. |
| `GitHead.long_hash_fails` | C113 | in a repository with hashes of another length, as those of SHA-256 with 64 digits, the build script fails on a commit of its own: there is no colon to split at. |
| `GitHead.switch_missed` | C113 | the header of Metamod is not made anew when one switches to another branch with another commit: the only file of git it depends on is that of the branch on which the build was configured. |
| `GitHead.packed_missed` | C113 | if the branch is packed when the build is configured, as after `git gc`, neither the header of Metamod nor the sample is made anew at the next commit: what they depend on is `.git/HEAD`, which still names the branch. |

Seen while reading, outside what the model can say: by-value parameters with destructors are passed to every
hook by the same pointer and destroyed by the generated hook function as well (core/sourcehook/
sourcehook_hookmangen_x86_64.cpp:468-485), although under the Windows convention the callee destroys them;
`BuildProtoInfo` (sourcehook_hookmangen_x86_64.cpp) has `delete` for arrays (never reached: C82); `meta info` prints an array that
is not initialised when the plugin has no text (core/metamod_console.cpp:319-334); `Load` drops failed entries
without deleting them.

## Not modelled

The MSVC branches of the 32-bit generator, FastDelegate.h (compiler-specific
layouts of member function pointers), the compiled code of the hand-written hook functions, C++ copy
constructors of parameters outside C65, the dynamic linker, the file system and the engine (all appear as
parameters), the Windows branches outside the code generator, multi-threading (SourceHook is single-threaded by
contract).

## Axioms per theorem

* **none** (14): `Deleg.static_compare_never`, `Jit32.alignBytes_sixteen`, `KvFile.kv_missing`, `KvFile.vdf_no_fs`, `Mgr.unloadAll_empty_partial`, `Page.failed_push_null`, `Page.failed_push_overruns`, `Page.map_failed_used`, `Page.moduleInMemory_fallback_inverted`, `Prov.Cmd.init_without_symbol`, `Prov.Eng.shared_number_misreported`, `Report.status_text_inverted`, `SH.Manual.slots_as_given`, `SH.note_effect`.
* **propext** (53): `Cmds.query_found`, `Cmds.query_unknown`, `Core.Br.clients_search_loses`, `Core.Br.missing_engine_faults`, `Core.Br.shutdown_removes_all`, `Core.Src.created_usable`, `Core.Src.default_lost`, `Core.Src.quote_ends_argument`, `Core.enable_idempotent`, `Core.meta_null`, `Core.meta_own`, `Core.meta_own_iff`, `Core.query_answer`, `Deleg.calls_bound`, `Deleg.empty_iff_bound`, `Deleg.equal_calls_same`, `Deleg.equal_iff_bound`, `Gen.clear_again`, `Jit.Plain.plain_override`, `Jit32.Rule.override_last`, `KvFile.vdf2_same`, `Loader.names_distinct`, `Loader.second_detect_true`, `Mgr.announce_again`, `Mgr.pause_no`, `Mgr.unload_no`, `Mgr.unload_waits`, `Mgr.unpause_no`, `PFile.new_not_skipped`, `Page.curprocBits_wrong`, `Page.empty_request_changes`, `Page.failed_push_keeps`, `Page.isolated_alone`, `Page.linux_trap_partial`, `Page.mac_later_fault`, `Page.mac_trap_answers`, `Page.mac_trap_exact`, `Page.mac_writable_nothing`, `Page.thunk_bytes`, `PluginVersion.hashes_recovered`, `Prov.Cmd.init_address`, `Prov.Cmd.unknown_keeps`, `Prov.Con.base_kind`, `Prov.Con.base_source2`, `Prov.Eng.original_iff`, `Prov.Eng.text2_right`, `Prov.unsupported`, `SH.Mfp.msvc_jump_back_unmapped`, `SH.copyCtor_not_compared`, `SH.proto_invalid_never_equal`, `Search.generator_linked`, `Util.relatize_double_sep_wrong`, `Util.relatize_same_dir_wrong`.
* **propext, Quot.sound** (299): `CStr.appendOwn_undefined`, `CStr.assign_null`, `CStr.at_spec`, `CStr.clear_spec`, `CStr.compare_order`, `CStr.compare_spec`, `CStr.empty_spec`, `CStr.erase_overruns`, `CStr.erase_past_end`, `CStr.findLastOf_default`, `CStr.findLastOf_spec`, `CStr.find_spec`, `CStr.setAt_spec`, `CStr.string_self_overlaps`, `CStr.substr_overruns`, `CStr.substr_wraps`, `CStr.toLower_nothing`, `CStr.toLower_wrong`, `Cmds.printed`, `Cmds.query_self_unwritten`, `Cont.alt_hash_needed`, `Cont.assign_self_empties`, `Cont.findAlt_any`, `Cont.grow_keeps`, `Cont.hash_assign`, `Cont.hash_copy`, `Cont.init_hrep`, `Cont.init_rep`, `Cont.init_srep`, `Cont.iteration`, `Cont.list_assign`, `Cont.list_copy`, `Cont.list_destroy`, `Cont.list_walks`, `Cont.popBackW_agrees`, `Cont.pop_empty_wraps`, `Cont.stack_at`, `Cont.stack_front`, `Cont.stack_never_moves_run`, `Cont.stack_self_broken`, `Cont.vec_at_partial`, `Cont.vec_size`, `Core.Br.changed_command_keeps_hooks`, `Core.Br.description_of`, `Core.Br.dllInit_hooks`, `Core.Br.failed_load_describes`, `Core.Br.failed_load_does_nothing`, `Core.Br.failed_load_renames`, `Core.Br.gamedll_stays`, `Core.Br.load_gamedll`, `Core.Br.load_hooks`, `Core.Br.load_takes_lowest`, `Core.Br.nested_unload_allowed`, `Core.Br.plugin_unload_refused_partial`, `Core.Br.refusal_ends_init_partial`, `Core.Br.refusal_ends_partial`, `Core.Br.shutdown_in_unload_keeps_refusal`, `Core.Br.unload_removes_partial`, `Core.Src.argument_is`, `Core.Src.below_fits`, `Core.Src.command_cut`, `Core.Src.command_leads_partial`, `Core.Src.command_relative`, `Core.Src.default_stands_in`, `Core.Src.engine_bare`, `Core.Src.engine_directory`, `Core.Src.flags_mapped`, `Core.Src.no_backslash`, `Core.Src.no_engine_file_faults`, `Core.Src.no_realpath_faults`, `Core.Src.version_flags`, `Core.Src.version_shown`, `Core.enable_nested_twice`, `Core.levelShutdown_reloads`, `Core.levels_reload`, `Core.nested_load_twice`, `Core.only_notify_tells`, `Core.query_unload_dangling`, `CurMap.bits_exact_iff`, `CurMap.bits_stale`, `CurMap.bits_told_partial`, `CurMap.bits_unmapped`, `CurMap.module_told`, `CurMap.other_text_ub`, `Dedi.all_put_back`, `Dedi.allowed_once_partial`, `Dedi.requested_twice_stops`, `Deleg.handler_key`, `Deleg.itanium_bind`, `Deleg.itanium_two_names`, `Deleg.null_equal_less`, `Deleg.null_not_empty`, `Fatal.render_ok_iff`, `Fatal.render_places`, `GInfo.keep_unique`, `Gen.delete_checked`, `Gen.forced_incompatible`, `Gen.takes32_accepts`, `Gen.takes64_accepts`, `Hopter.other_blanks_stay`, `Hopter.template_filled`, `Jit.Class.live_refuses`, `Jit.Plain.plain_orig_iff`, `Jit.Plain.plain_status`, `Jit.Rule.orig_called_iff`, `Jit.Rule.orig_value`, `Jit.Rule.override_last`, `Jit.Rule.parameter_destroyed_again`, `Jit.Rule.status_highest`, `Jit.autoDetect_memory`, `Jit.autoDetect_register`, `Jit.autoDetect_said`, `Jit.call_aligned`, `Jit.hook_answers`, `Jit.movImm_negative_wrong`, `Jit.object_always_memory`, `Jit.object_in_register_lost`, `Jit.prev_intended`, `Jit.prev_never_seen`, `Jit.prev_run`, `Jit.pub_aligned`, `Jit.reads_unique`, `Jit.result_intended`, `Jit.result_lost`, `Jit.rewrite_jcc`, `Jit.rewrite_jump`, `Jit32.Class.live_refuses`, `Jit32.Class.unconstructed_assigned`, `Jit32.Rule.orig_called_iff`, `Jit32.Rule.orig_value`, `Jit32.Rule.status_highest`, `Jit32.autoDetect_memory`, `Jit32.autoDetect_object`, `Jit32.autoDetect_register`, `Jit32.autoDetect_said`, `Jit32.auto_ebp_absolute`, `Jit32.callRm_jumps`, `Jit32.copy_of_pointer_unaligned`, `Jit32.destructor_result_returned`, `Jit32.esp_base`, `Jit32.forceRef_bits`, `Jit32.frame_packed`, `Jit32.fstpAuto_swallows`, `Jit32.imulImm_eax`, `Jit32.large_in_registers`, `Jit32.odd_size_not_pushed`, `Jit32.pointer_copied_for_object`, `Jit32.pub_aligned`, `Jit32.totalSize_wraps`, `Jit32.vafmt_without_list`, `Jit32.varArgs_as_vafmt`, `KvFile.kv_negative_size`, `KvFile.kv_short_read`, `KvFile.kv_whole_partial`, `KvFile.vdf2_balanced`, `KvFile.vdf2_outcome`, `KvFile.vdf_balanced`, `KvFile.vdf_provides`, `Loader.app_number`, `Loader.config_roundtrip_partial`, `Loader.connect_undone_partial`, `Loader.detect_index`, `Loader.failed_init_always`, `Loader.game_roundtrip_partial`, `Loader.init_undone_partial`, `Loader.load_refused`, `Loader.requestConfig_patches`, `Loader.requestGame_patches`, `Loader.requestS2_patches`, `Loader.s2_null_always`, `Loader.s2_roundtrip_partial`, `Loader.shutdown_slot_partial`, `Loader.version_number`, `Mgr.event_unload_dangling`, `Mgr.failed_load_announced`, `Mgr.late_hook_active`, `Mgr.load_called`, `Mgr.load_failed_says_already`, `Mgr.load_not_called`, `Mgr.load_self_uninit`, `Mgr.paused_never_told`, `Mgr.registered_exact_partial`, `Mgr.retry_hooks_lost`, `Mgr.retry_hooks_stay`, `Mgr.retry_id_reused`, `Mgr.retry_nested_dangling`, `Mgr.retry_not_announced`, `Mgr.retry_pause_misses`, `Mgr.retry_same_ids`, `Mgr.told_twice`, `Mgr.unknown_api_leaks`, `Mgr.unknown_listener_null`, `Mgr.unlink_unreg_dangling`, `Mgr.unloadAll_not_announced`, `Mgr.unload_agreed`, `Mgr.unload_refused`, `Mgr.unreg_in_load_uninit`, `PFile.absolute_is_format`, `PFile.atoi_number`, `PFile.atoi_numeral`, `PFile.empty_by_junk`, `PFile.empty_name_overreads`, `PFile.failed_counted_skipped`, `PFile.means_total`, `PFile.read_total`, `PFile.takes_spec`, `PFile.unload_by_name`, `PFile.unload_digits`, `PFile.vdf_empty_depends`, `PFile.vdf_failed_skipped`, `PFile.vdf_name_resolves`, `PFile.vdf_name_written`, `Page.blocks_apart`, `Page.blocks_good`, `Page.free_other`, `Page.init_inv`, `Page.linux_later_fault`, `Page.linux_trap_exact`, `Page.mac_bits`, `Page.moduleInMemory_maps`, `Page.setAccess_step`, `Page.thunkOffset_exact`, `Page.win_access`, `Page.win_bits`, `Prov.Cmd.register_again_cuts`, `Prov.Cmd.unregister_exact`, `Prov.Con.cmd_callbacks`, `Prov.Con.new_flags`, `Prov.Con.unlink_register_stays`, `Prov.Eng.newer_clients_not_hooked`, `Prov.Eng.number_right`, `Prov.Eng.numbers_distinct`, `Prov.Eng.text_right`, `Prov.Eng.unknown_refused`, `Prov.S2.shutdown_leaves`, `Prov.find_first`, `Prov.find_get`, `Prov.get_iff`, `Report.list_line`, `Report.list_spec`, `Report.log_error_stale`, `SH.Manual.same_slot_iff`, `SH.Manual.this_offset_ignored`, `SH.Mfp.msvc2_entry`, `SH.Mfp.msvc4_counts_twice`, `SH.Mfp.msvc_jump_back`, `SH.Mfp.msvc_jump_partial`, `SH.Mfp.msvc_loads`, `SH.Mfp.msvc_plain`, `SH.Mfp.msvc_virtual`, `SH.manager_removed_dangling`, `SH.proto_fill_wf`, `SH.recall_unhooked_leaks`, `SH.recalled_orig_ret_wrong`, `SH.replaced_recall_dangling`, `SH.shcall_unhooked_bypasses_others`, `SH.thunk_freed_twice`, `SH.unload_in_call_dangling`, `SH.unload_removes_others_hooks`, `SH.vp_post_replaced_dangling`, `SH.vp_replaced_dangling`, `Search.targets_default`, `Search.targets_given`, `Search.unknown_arch_name_error`, `Shw.expr_only`, `Shw.unclosed_fails`, `Util.argument_absent`, `Util.badRelatize_resolves`, `Util.findPattern_misses_last`, `Util.findPattern_partial`, `Util.formatIface_clobbers`, `Util.formatIface_empty_faults`, `Util.formatIface_increments_partial`, `Util.formatIface_overruns`, `Util.formatIface_small`, `Util.format_failure_terminates`, `Util.format_spec`, `Util.format_zero_faults`, `Util.libraryInfo_other`, `Util.libraryInfo_sound`, `Util.mmTrimLeft_spec`, `Util.mmTrimRight_spec`, `Util.pathFormat_spec`, `Util.relatize2_resolves`, `Util.relatize_fits`, `Util.relatize_resolves_partial`, `Util.search_finds`, `Util.search_never_ends`, `Util.search_partial`, `Util.search_repeats`, `Util.search_returns_offered_partial`, `Util.slashes_cases`, `Util.trimComments_cuts`, `Util.trimComments_idempotent`, `Util.trimComments_keeps`, `Util.trim_laws`, `Util.vInterface_from`, `Util.vInterface_keeps`, `Util.verifySignature_spec`.
* **propext, Classical.choice, Quot.sound** (488): `Alike.agree32`, `Alike.agree32_class`, `Alike.agree64`, `Alike.agree64_class`, `Alike.agree64_plain`, `Alike.handlers_agree32`, `Alike.handlers_agree32_class`, `Alike.handlers_agree32_class_post`, `Alike.handlers_agree64`, `Alike.handlers_agree64_class`, `Alike.handlers_agree64_class_post`, `Alike.handlers_agree64_plain`, `Alike.prev_agrees32`, `Alike.prev_agrees64_iff`, `Bootstrap.configured_kept`, `Bootstrap.environment`, `Bootstrap.fails_iff`, `Bootstrap.outside_kept`, `Bootstrap.prepared`, `Build.groups_iff`, `Build.header_values`, `Build.manual_numbers`, `Build.package_named`, `Build.package_of_other_release`, `Build.plus_tag_collides`, `Build.productVersion_agrees`, `Build.quote_cuts_tag`, `Build.refused_iff`, `Build.version_determines`, `Build.version_text`, `CStr.appendC_spec`, `CStr.append_spec`, `CStr.assign_spec`, `CStr.erase_actual`, `CStr.erase_partial`, `CStr.erase_removes_too_much`, `CStr.string_assign`, `CStr.string_copy`, `CStr.string_refines_partial`, `CStr.substr_spec`, `CStr.trim_spec`, `Cmds.console_answered`, `Cmds.console_no_words`, `Cmds.console_unanswered`, `Cmds.console_words`, `Cmds.info_null_faults`, `Cmds.info_read`, `Cmds.info_reads_unwritten`, `Cmds.info_rest`, `Cmds.info_told`, `Cmds.player_answered`, `Cmds.player_other`, `Cmds.player_unanswered`, `Cmds.plugin_log_partial`, `Cmds.query_no_room`, `Cmds.query_running`, `Cmds.same_for_all`, `Cont.alt_refines`, `Cont.alt_step`, `Cont.at_end_unchecked`, `Cont.erase_while_iterating`, `Cont.hash_copy_overcounts`, `Cont.hash_refines`, `Cont.hash_self_emptied`, `Cont.hash_step`, `Cont.insert_own_before`, `Cont.insert_own_behind`, `Cont.insert_own_full`, `Cont.list_iterators_stay`, `Cont.list_refines`, `Cont.list_self_emptied`, `Cont.list_step`, `Cont.makeNext_top`, `Cont.push_own_element`, `Cont.stack_assign_partial`, `Cont.stack_copy_partial`, `Cont.stack_copy_reads_unset`, `Cont.stack_never_moves`, `Cont.stack_step`, `Cont.vec_refines`, `Cont.vec_step`, `Core.Src.command_line_once`, `Core.Src.empty_variable_faults`, `Core.Src.initial_sources`, `Core.Src.reload_null_iff`, `Core.Src.reload_sources`, `Core.Src.same_every_level`, `Core.command_at_most_once`, `Core.command_requested`, `Core.command_sent`, `Core.gamedll_loads_once`, `Core.late_never_told`, `Core.meta_plain`, `Core.notify_tells`, `Core.query_order`, `Core.query_plain`, `Core.told_exactly_once`, `Core.vsp_loads_once_partial`, `Core.vsp_loads_partial`, `CurMap.slot_page_partial`, `Dedi.other_object_null`, `Dedi.requested_twice_null`, `Deleg.compilers_ok`, `Deleg.less_order`, `Deleg.ms_bind`, `Deleg.ms_equal_iff_call`, `Fatal.calls_defined`, `Fatal.entry_one_line`, `Fatal.error_unwritten`, `Fatal.fail_iff`, `Fatal.header_determines`, `Fatal.load_reported_partial`, `Fatal.logFatal_spec`, `Fatal.log_in_order`, `Fatal.log_kept`, `Fatal.number_round_trip`, `GInfo.detect_sound`, `GInfo.kept`, `GInfo.long_line_taken`, `GInfo.named_total`, `GInfo.paths_sound`, `GInfo.paths_spec_partial`, `GInfo.quoted_ignored`, `GInfo.section_never_ends`, `Gen.all_freed32`, `Gen.answer_fits`, `Gen.built_read_back`, `Gen.compat32_iff`, `Gen.compat64`, `Gen.frames_laid_out`, `Gen.generators_defined`, `Gen.memory32`, `Gen.released64_leaks`, `GitHead.branch_watched`, `GitHead.detached_watched`, `GitHead.long_hash_fails`, `GitHead.main_notices_partial`, `GitHead.packed_missed`, `GitHead.sample_notices`, `GitHead.switch_missed`, `Hopter.file_filled`, `Hopter.file_open`, `Hopter.no_number_ub`, `Jit.Class.class_results_partial`, `Jit.Class.objects_live`, `Jit.Class.places_nodup`, `Jit.Plain.plain_results`, `Jit.Rule.hook_rule`, `Jit.Rule.prev_rule`, `Jit.accepts_iff`, `Jit.autoDetect_only`, `Jit.bytes_inj`, `Jit.hook_refines_kept_partial`, `Jit.hook_refines_partial`, `Jit.movImm64_value`, `Jit.movImm_value`, `Jit.pub_info`, `Jit.pub_null`, `Jit.reads`, `Jit.result_lost_run`, `Jit.roundTrip`, `Jit.vafmt_dropped`, `Jit.vars_apart`, `Jit32.Class.class_results`, `Jit32.Class.objects_live`, `Jit32.Class.places_nodup`, `Jit32.Rule.hook_rule`, `Jit32.Rule.prev_rule`, `Jit32.accepted_hookOk`, `Jit32.accepts_iff`, `Jit32.alignBytes_spec`, `Jit32.autoDetect_only`, `Jit32.auto_truncates`, `Jit32.copied_object_in_place`, `Jit32.float_arrives`, `Jit32.frame_apart`, `Jit32.hook_function_partial`, `Jit32.movzx16_prefixed`, `Jit32.pub_info`, `Jit32.pub_null`, `Jit32.quiet32_bits`, `Jit32.quiet64_bits`, `Jit32.reads`, `Jit32.roundTrip`, `Jit32.signalling_nan_altered`, `Jit32.totalSize_eq`, `Jit32.totalSize_small`, `KvFile.kv_ok_iff`, `Loader.adapted_fits`, `Loader.asked_after_detection`, `Loader.bridge_open_partial`, `Loader.bridged_refuses`, `Loader.code_iff`, `Loader.core_forwards`, `Loader.core_has_name`, `Loader.detectS2_spec`, `Loader.detect_iff`, `Loader.detect_not_obsolete`, `Loader.detect_onto`, `Loader.dispatch`, `Loader.failed_init_null`, `Loader.first_load_fits`, `Loader.forward_defined_partial`, `Loader.gameName_app`, `Loader.gameName_argument`, `Loader.gameName_no_value`, `Loader.game_paths_tried`, `Loader.libraryPath_spec`, `Loader.library_index`, `Loader.load_bridge_partial`, `Loader.loads_need_request`, `Loader.nested_init_dangling`, `Loader.paths_at_most_ten`, `Loader.requested_twice_recurses`, `Loader.s2_null_answer`, `Loader.s2_server_first`, `Loader.second_load_shifts`, `Loader.second_request_closed`, `Loader.shutdown_then_unload_unmapped`, `Loader.table_once_partial`, `Loader.too_early_refused`, `Loader.unload_blocks_reload`, `Loader.unload_twice_unmapped`, `Loader.version_told_partial`, `Loader.vsp_handed_iff`, `Loader.vsp_handed_version`, `Maps.bits_told`, `Maps.bits_unmapped`, `Maps.module_told`, `Maps.slot_writable`, `Maps.text_refines`, `Maps.writable_refines`, `Metadata.file_current`, `Metadata.second_run`, `Metadata.user_first`, `Metadata.written_iff`, `Mgr.alias_map`, `Mgr.alias_other`, `Mgr.announce_exact_partial`, `Mgr.announced_stays_partial`, `Mgr.hooks_paused_partial`, `Mgr.ids_distinct_partial`, `Mgr.late_told_partial`, `Mgr.load_answer`, `Mgr.load_event_partial`, `Mgr.load_id_new_partial`, `Mgr.load_loaded`, `Mgr.paths_distinct_partial`, `Mgr.pause_event_partial`, `Mgr.status_cause_partial`, `Mgr.status_life_partial`, `Mgr.told_once_partial`, `Mgr.unloadAll_ends_partial`, `Mgr.unloadAll_never_ends`, `Mgr.unload_event_partial`, `Mgr.unload_unregisters_partial`, `Mgr.unload_yes_partial`, `Mgr.unpause_event_partial`, `PFile.alias_absolute_ignored`, `PFile.by_number`, `PFile.clear_alias`, `PFile.dir_no_overrun`, `PFile.dir_spec_partial`, `PFile.file_no_overrun`, `PFile.file_spec_partial`, `PFile.getExtension_spec`, `PFile.getFullPath_spec`, `PFile.loadPlugins_partial`, `PFile.load_frees_while_busy`, `PFile.load_reply`, `PFile.load_then_unload_partial`, `PFile.loaded_skipped`, `PFile.locked_nothing`, `PFile.long_line_split`, `PFile.missing_argument`, `PFile.parseLine_spec`, `PFile.tells_only`, `PFile.unknown_command`, `PFile.unload_not_letter`, `PFile.unload_other_spelling`, `PFile.vdf_long_cut`, `Package.backends_apart`, `Package.core_packed`, `Package.deduced_wrong`, `Package.loader_finds_core`, `Package.loader_packed`, `Package.mac_undefined`, `Package.no_overwriting`, `Package.own_name`, `Package.vdf_dangling`, `Package.vdf_names_loader`, `Page.alloc_step`, `Page.count_between`, `Page.free_keeps_content`, `Page.free_step`, `Page.genbuf_refines_partial`, `Page.mac_slot`, `Page.mac_unmapped`, `Page.makePageWritable_slot`, `Page.makePageWritable_two_pages`, `Page.mem_access_cover_partial`, `Page.origCallAddr_even`, `Page.page_alloc_partial`, `Page.pushes_keep`, `Page.rewrite_exact`, `Page.run_blocks`, `Page.setMemAccess_exact`, `Page.setMemAccess_succeeds`, `Page.thunk_alloc`, `Page.thunk_fits`, `Page.thunk_jumps`, `Page.win_modifier_lost`, `Page.win_slot`, `Page.win_widened`, `Page.zero_size_shares`, `Plugin.outputs_distinct`, `Plugin.plugin_where_named`, `Plugin.sdk_recovered`, `Plugin.two_targets_collide`, `Plugin.vdf_read_back`, `PluginVersion.filled_twice`, `PluginVersion.gathered`, `PluginVersion.git_failed`, `PluginVersion.no_repository`, `PluginVersion.tag_alone`, `PluginVersion.tag_misread`, `PluginVersion.tag_recovered`, `PluginVersion.version_filled`, `Prov.Cmd.register_front`, `Prov.Cmd.register_unregister`, `Prov.Cmd.removeMine_exact`, `Prov.Cmd.run_exact`, `Prov.Con.base_round_trip`, `Prov.Con.hidden_iff`, `Prov.Con.listed_iff_shown_partial`, `Prov.Con.other_flags_kept`, `Prov.Con.own_freed`, `Prov.Con.register_reveals`, `Prov.Con.register_shows`, `Prov.Con.shutdown_twice`, `Prov.Con.unload_hides_partial`, `Prov.Con.unload_unlinks_partial`, `Prov.Con.var_state`, `Prov.Eng.detected_reported`, `Prov.S2.create_null_faults`, `Prov.S2.follows_engine`, `Prov.S2.init_follows`, `Prov.S2.init_gives_up`, `Prov.S2.late_destroy_stays`, `Prov.S2.no_filesystem_faults`, `Prov.S2.no_services_faults`, `Prov.S2.override_not_followed`, `Prov.S2.paths_all_lost`, `Prov.S2.paths_exact`, `Prov.S2.paths_gone`, `Prov.S2.shutdown_clears`, `Prov.cache_exact`, `Prov.cache_far`, `Prov.jump_reaches`, `Report.client_list`, `Report.log_long`, `Report.log_nested`, `Report.log_partial`, `SH.Manual.added_at_new_slot`, `SH.Manual.mcall_this_unadjusted`, `SH.Manual.reconfigure_leaves`, `SH.Manual.reconfigured`, `SH.Mfp.gcc_entry`, `SH.Mfp.gcc_injective`, `SH.Mfp.gcc_plain`, `SH.Mfp.gcc_virtual`, `SH.Pi.builder_exact`, `SH.Pi.builder_reflexive`, `SH.Pi.seventh_stale`, `SH.Pi.stale_iff`, `SH.TakeBack.class_hook_not_taken_back`, `SH.TakeBack.metamod_no_trace`, `SH.TakeBack.no_trace`, `SH.TakeBack.samples_no_trace`, `SH.TakeBack.source_leaves_command_hook`, `SH.TakeBack.taken_back`, `SH.TakeBack.unread_prototype_not_taken_back`, `SH.addHook_result`, `SH.autogen_partial`, `SH.before_original`, `SH.best_manager_serves`, `SH.call_order`, `SH.call_outcome`, `SH.call_restores`, `SH.code_iff_held`, `SH.desc_recorded`, `SH.desc_stable`, `SH.group_order`, `SH.handler_deleted_iff_gone`, `SH.handler_ifaceptr`, `SH.handler_sees`, `SH.handler_status`, `SH.handlers_deleted_exactly_once`, `SH.hook_calls_never_fault_partial`, `SH.hook_identity_stable`, `SH.hook_ids_positive`, `SH.hook_ids_unique`, `SH.hooked_call_enters`, `SH.hooked_slot_has_record`, `SH.hooks_in_order`, `SH.hooks_listed_in_order`, `SH.invoked_are_registered`, `SH.invoked_is_live`, `SH.make_destroys_none`, `SH.make_shared`, `SH.make_total`, `SH.manager_stored_iff_serving`, `SH.no_hook_missed`, `SH.no_hook_missed_from_start`, `SH.no_original_after_post`, `SH.no_thunk_no_free`, `SH.notes_true`, `SH.nothing_twice`, `SH.offers_after_add`, `SH.offers_after_other`, `SH.other_memory_untouched`, `SH.outer_untouched`, `SH.override_available`, `SH.proto_eq_decides`, `SH.proto_eq_distinguishes`, `SH.proto_eq_refl`, `SH.proto_eq_symm`, `SH.proto_exactlyEqual_decides`, `SH.pub_iff_request`, `SH.recall_carries`, `SH.recall_ifaceptr`, `SH.recalling_loop_is_over`, `SH.registry_never_faults`, `SH.release_destroys`, `SH.released_at_once`, `SH.released_by_second_drain`, `SH.released_only_when_idle`, `SH.removeHookById_again`, `SH.removeHookById_exact`, `SH.removeHook_exact`, `SH.setHookPaused_exact`, `SH.setHookPaused_last_wins`, `SH.setPluginPaused_exact`, `SH.shcall_enters`, `SH.shcall_outcome`, `SH.shcall_unhooked_balanced`, `SH.slot_patched_iff_hooked`, `SH.thunk_freed_iff`, `SH.thunk_freed_once_partial`, `SH.thunk_not_freed_early`, `SH.unload_accounting`, `SH.unload_removes_all`, `SH.unload_removes_exactly_own_partial`, `Sample.command_shows`, `Sample.command_superseded_iff`, `Sample.handlers_leave_none`, `Sample.load_fails`, `Sample.load_fails_silently`, `Sample.load_true_iff`, `Sample.menu_items`, `Sample.name_change_reversed`, `Sample.samples_hook_right`, `Sample.samples_listen`, `Sample.samples_unloadable`, `Sample.settings_print_iff`, `Search.climb_nearest`, `Search.findSdk_order`, `Search.variable_hides`, `Shw.expand_partial`, `Shw.expr_value`, `Shw.iter_blanks`, `Shw.params_listed`, `Util.argument_value`, `Util.argument_without_value`, `Util.findPatternIn_spec`, `Util.keySplit_keeps_quotes`, `Util.keySplit_overruns`, `Util.keySplit_partial`, `Util.keySplit_safe_with_spare`, `Util.libraryInfo_empty`, `Util.libraryInfo_spec`, `Util.mmPathCmp_spec`, `Util.pathCmp_equiv`, `Util.pathCmp_spec`, `Util.ranges_inside`, `Util.search_tries_once`, `Util.utilTrimLeft_spec`, `Util.utilTrimRight_spec`.
